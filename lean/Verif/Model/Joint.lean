import Verif.Model.ClientHistory
import Verif.Spec.Client
import Verif.Spec.Server

/-!
# One client and one server

Histories of a client machine and a server machine side by side. The network in between is hostile: it loses, repeats, reorders and invents
datagrams. The one thing it can not do is make a datagram that opens under the shared key (`OnlySentBy`).
-/

namespace Ruroco

/-- Client machine and server machine. -/
structure Joint where
  cw : World
  sys : Sys

inductive JEv where
  | client (e : CEv)
  | server (e : Ev)

/-- A key `key` with id `k`, and a time `T` at which the two sides were set up. -/
structure Bond where
  k : List Byte
  key : List Byte
  T : Nat

/-- Unforgeability, for one datagram: if it carries the id of the key and opens under the key, then its 94 bytes were sent by the client. -/
def OnlySentBy (A : Aead) (b : Bond) (cw : World) (dg : List Byte) : Prop :=
  dg.take 8 = b.k → (∃ d, Spec.Seals A b.key dg d) → ∃ ip port c, .udp ip port c (dg.take 94) ∈ cw.log

/-- Assumptions on what happens on the client machine. A send uses, for this key id, this key, and nonces of the right size; if there is no counter
file its clock is not before `T`. A reseed does not lower the counter: its clock is not before `T` nor below a counter already sent. -/
def ClientAssumed (b : Bond) (cdir : Path) (cw : World) : CEv → Prop
  | .send env _ _ senv =>
    (∀ t h, senv.keyText = some t → CryptoHandler.create (trim t) = .ok h → h.id = b.k → h.key = b.key) ∧
    (∀ i iv, senv.rnd i = some iv → iv.length = 12) ∧
    (cw.fs (counterPath cdir) = none → ∀ t, some t ∈ env.clock → b.T ≤ t.toNat)
  | .reseed env _ => ∀ t, some t ∈ env.clock → b.T ≤ t.toNat ∧ ∀ c ∈ Spec.wire cw.log, c.toNat ≤ t.toNat
  | .power => True
  | .others => True

/-- Assumptions on what happens on the server machine. A start loads, for this key id, this key; if no counter is stored for it, its clock is not
after `T`. -/
def ServerAssumed (A : Aead) (b : Bond) (sdir : Path) (cw sw : World) : Ev → Prop
  | .start env _ senv =>
    (∀ hs h, createCryptoHandlers senv.dir = .ok hs → hs.get b.k = some h → h.key = b.key) ∧
    (Spec.onDisk sw (blocklistPath sdir) b.k = none → ∀ t, some t ∈ env.clock → t.toNat ≤ b.T)
  | .packet _ dg _ _ _ => OnlySentBy A b cw dg
  | .kill => True
  | .power => True
  | .others => True

inductive JStep (A : Aead) (hash : List Char → U64) (b : Bond) (cdir sdir : Path) : Joint → JEv → Joint → Prop
  | client (j : Joint) (e : CEv) (cw' : World) (ha : ClientAssumed b cdir j.cw e) (h : CStep A hash cdir j.cw e cw') :
      JStep A hash b cdir sdir j (.client e) ⟨cw', j.sys⟩
  | server (j : Joint) (e : Ev) (sys' : Sys) (ha : ServerAssumed A b sdir j.cw j.sys.w e) (h : Step A sdir j.sys e sys') :
      JStep A hash b cdir sdir j (.server e) ⟨j.cw, sys'⟩

inductive JRun (A : Aead) (hash : List Char → U64) (b : Bond) (cdir sdir : Path) : Joint → List JEv → Joint → Prop
  | nil (j : Joint) : JRun A hash b cdir sdir j [] j
  | snoc {j j' j'' : Joint} {evs : List JEv} {e : JEv} : JRun A hash b cdir sdir j evs j' → JStep A hash b cdir sdir j' e j'' →
      JRun A hash b cdir sdir j (evs ++ [e]) j''

end Ruroco
