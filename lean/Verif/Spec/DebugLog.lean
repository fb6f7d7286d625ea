import Verif.Model.DebugLog
import Verif.Spec.Refusal
import Verif.Spec.ServerLog

/-!
# Specification: reading the fate of each datagram off the standard output (C126)
-/

namespace Ruroco.Spec

/-- What became of a datagram. -/
inductive Fate where
  /-- nothing was done, for this reason -/
  | refused (x : Refusal)
  /-- the commander was told -/
  | passedOn
  /-- the commander could not be told -/
  | lost
deriving DecidableEq, Repr

/-- The word for a level, as it is to be read by people. -/
def word : Level → List Char
  | .info => ['I', 'N', 'F', 'O']
  | .debug => ['D', 'E', 'B', 'U', 'G']
  | .error => ['E', 'R', 'R', 'O', 'R']

/-- That this became of the datagram `dg` from `src`: the processing began in the world `w` and ended with `r` in the world `w'`. -/
def Happened (A : Aead) (s : Server) (dg : List Byte) (src : SockAddr) (rd : Readings) (w : World) (r : Except Err Unit) (w' : World) : Fate → Prop
  | .refused x => r = .error x.kind ∧ Holds A s dg src rd (w.clock.head?.bind id) x ∧ forwards w'.log = forwards w.log
  | .passedOn => r = .ok () ∧ ∃ d, Legitimate A s dg src.ip w d ∧ forwards w'.log = forwards w.log ++ [(w.cur, d.counter, message d (normalizeIp src.ip))]
  | .lost => r = .ok () ∧ (∃ c ∈ w.oracle, c ≠ .ok) ∧ ∃ d, Legitimate A s dg src.ip w d ∧
      (forwards w'.log = forwards w.log ∨ ∃ k, forwards w'.log = forwards w.log ++ [(w.cur, d.counter, (message d (normalizeIp src.ip)).take k)])

/-- What became of the datagrams that arrive in the turns, in their order. -/
inductive Fates (A : Aead) : Server → World → List (Turn × Nat) → List Fate → Prop where
  | none (s : Server) (w : World) : Fates A s w [] []
  | retry (s : Server) (w : World) (t : Turn) (port : Nat) (ts : List (Turn × Nat)) (fs : List Fate) (h : t.recv = .retry) (hr : Fates A s w ts fs) : Fates A s w ((t, port) :: ts) fs
  | datagram (s s' : Server) (w w' : World) (t : Turn) (port : Nat) (ts : List (Turn × Nat)) (dg : List Byte) (src : Ip) (rd : Readings) (tl : Nat) (r : Except Err Unit) (f : Fate)
      (fs : List Fate) (h : t.recv = .datagram dg src rd tl)
      (hh : s.handleDatagram A dg src rd tl (w.withEnv t.env (dg.take 94)) = (.ok (s', r), w')) (hf : Happened A s dg ⟨src, port⟩ rd (w.withEnv t.env (dg.take 94)) r w' f)
      (hr : Fates A s' w' ts fs) : Fates A s w ((t, port) :: ts) (f :: fs)

/-- The lines with which the report about a datagram begins: that it has arrived, or that it had the wrong size. -/
def begins : DbgLine → Bool
  | .received .. => true
  | .failed (.badSize ..) => true
  | _ => false

/-- From where such a line says the datagram came. -/
def sender : DbgLine → Option SockAddr
  | .received _ src => some src
  | .failed (.badSize _ src) => some src
  | _ => none

/-- The lines since the last beginning, and the reports before. -/
def cutStep (l : DbgLine) (acc : List DbgLine × List (List DbgLine)) : List DbgLine × List (List DbgLine) :=
  if begins l then ([], (l :: acc.1) :: acc.2) else (l :: acc.1, acc.2)

/-- The log cut into reports, each of which begins with such a line. -/
def reports (ls : List DbgLine) : List (List DbgLine) := (ls.foldr cutStep ([], [])).2

def reason : DbgLine → Option Refusal
  | .failed x => some x
  | _ => none

/-- What a report says: the reason of the refusal, if it has one; that the commander was told, if it says so; else that it could not be told. -/
def fateOf (report : List DbgLine) : Fate :=
  match report.findSome? reason with
  | some x => .refused x
  | none => if DbgLine.plain .sent ∈ report then .passedOn else .lost

/-- What is written to the standard output. -/
def toStdout (l : DbgLine) : Bool := l.level != .error

/-- The lines that are not of the level `debug`. -/
def undebugged : DbgLine → Option SrvEntry
  | .plain x => some x
  | _ => none

end Ruroco.Spec
