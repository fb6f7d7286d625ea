import Verif.Model.AtOnce
import Verif.Model.Joint

/-!
# Several clients at the same time, and the server

The client machine of `Model/AtOnce`, a server machine and a hostile network, interleaved step by step: the server may receive a datagram while the client that sent it is still in the middle of its send.
The assumptions are those of `Model/Joint`, made step by step.
-/

namespace Ruroco.AtOnce

open Ruroco.Spec.AtOnce

/-- Client machine and server machine. -/
structure JMachine where
  m : Machine
  sys : Sys

/-- Assumptions on a step of the client machine, as `ClientAssumed`: a send uses, for this key id, this key, and nonces of the right size; the clock is not before `T`, and during a reseed not below a counter already sent. -/
def MoveAssumed (b : Bond) (s : Machine) : Move → Prop
  | .begins _ (.send _ senv) =>
    (∀ t h, senv.keyText = some t → CryptoHandler.create (trim t) = .ok h → h.id = b.k → h.key = b.key) ∧ ∀ i iv, senv.rnd i = some iv → iv.length = 12
  | .works _ _ ts => ∀ t, some t ∈ ts → b.T ≤ t.toNat ∧ ∀ l, s.did = l ++ [.job .reseed] → ∀ c ∈ Spec.wire s.w.log, c.toNat ≤ t.toNat
  | _ => True

/-- Any number of steps of the two machines, with the events on the server machine in order. -/
inductive JMRun (A : Aead) (b : Bond) (cdir sdir : Path) (code : Job → Prog Unit) (j0 : JMachine) : List Ev → JMachine → Prop
  | nil : JMRun A b cdir sdir code j0 [] j0
  | client {evs : List Ev} {j : JMachine} {a : Move} {m' : Machine} (h : JMRun A b cdir sdir code j0 evs j) (ha : MoveAssumed b j.m a) (hs : MStep cdir code j.m a m') :
      JMRun A b cdir sdir code j0 evs ⟨m', j.sys⟩
  | server {evs : List Ev} {j : JMachine} {e : Ev} {sys' : Sys} (h : JMRun A b cdir sdir code j0 evs j) (ha : ServerAssumed A b sdir j.m.w j.sys.w e) (hs : Step A sdir j.sys e sys') :
      JMRun A b cdir sdir code j0 (evs ++ [e]) ⟨j.m, sys'⟩

/-- The events on the client machine, in order. -/
def clientEvents (evs : List JEv) : List CEv := evs.filterMap fun e => match e with | .client e => some e | .server _ => none

/-- The events on the server machine, in order. -/
def serverEvents (evs : List JEv) : List Ev := evs.filterMap fun e => match e with | .client _ => none | .server e => some e

end Ruroco.AtOnce
