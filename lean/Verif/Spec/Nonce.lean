import Verif.Spec.Client
import Verif.Model.ClientHistory

/-!
# Specification: the nonces on the wire
-/

namespace Ruroco.Spec

/-- The nonce of a datagram: the twelve bytes behind the id of the key (docs: `key id (8) ‖ IV (12) ‖ tag (16) ‖ ciphertext (58)`). -/
def nonceOf (bytes : List Byte) : List Byte := (bytes.drop 8).take 12

/-- The nonces of the datagrams handed to the network, in order. -/
def nonces (log : List Event) : List (List Byte) := (datagrams log).map fun d => nonceOf d.2.2.2

/-- The `i`-th draw of random bytes by the `k`-th event of a history (sends only draw). -/
def draws (evs : List CEv) (k i : Nat) : Option (List Byte) :=
  match evs[k]? with
  | some (.send _ _ _ senv) => senv.rnd i
  | _ => none

/-- Random bytes come in the number asked for. -/
def TwelveEach (evs : List CEv) : Prop := ∀ k i iv, draws evs k i = some iv → iv.length = 12

/-- No two draws of the history gave the same bytes. -/
def NoTwoAlike (evs : List CEv) : Prop := ∀ k k' i i' iv, draws evs k i = some iv → draws evs k' i' = some iv → k = k' ∧ i = i'

/-- All sends of the history are made with this key. -/
def OneKey (key : List Byte) (evs : List CEv) : Prop :=
  ∀ env held cmd senv, .send env held cmd senv ∈ evs → ∀ t h, senv.keyText = some t → CryptoHandler.create (trim t) = .ok h → h.key = key

end Ruroco.Spec
