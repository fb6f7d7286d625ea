import Verif.Spec.Client
import Verif.Model.ClientLog

/-!
# Specification: what the client says about a send
-/

namespace Ruroco.Spec

/-- The failure was noticed before anything was done for this destination but taking a counter. -/
def SendFailure.early : SendFailure → Bool
  | .overflow => true
  | .counterFile _ => true
  | _ => false

/-- What is said about destination `a`; `f`: why it failed, `none` if it did not. -/
def account (command : List Char) (a : SockAddr) : Option SendFailure → List ClientLine
  | none => [.connecting a, .sent command a]
  | some why => (if SendFailure.early why then [] else [.connecting a]) ++ [.failed a why]

/-- The reason given is the true one: `c` is the counter after the attempt, `la` are the events of the attempt. Only if a call on a socket failed can a datagram have been handed over. -/
def TrueReason (s : Sender) (a : SockAddr) (c : U128) (la : List Event) : SendFailure → Prop
  | .overflow => c.toNat = 2 ^ 128 - 1 ∧ la = []
  | .counterFile p => p = s.counter.path ∧ wire la = [] ∧ .udpSocket ∉ la
  | .noIv => wire la = [] ∧ .udpSocket ∉ la
  | .badLength => wire la = [] ∧ .udpSocket ∉ la
  | .socket b => b = a ∧ .udpSocket ∈ la

/-- As `Tried`, together with what is said: every destination in order, with what is said about it, what was done for it, and why it failed if it did. -/
inductive Reported (A : Aead) (hash : List Char → U64) (s : Sender) : (i prev : Nat) → List SockAddr → List (Option SendFailure) → List ClientLine → List Event → Prop
  | nil (i prev : Nat) : Reported A hash s i prev [] [] [] []
  | cons {i prev : Nat} {a : SockAddr} {rest : List SockAddr} {f : Option SendFailure} {fs : List (Option SendFailure)} {c : U128} {lines : List ClientLine} {la l : List Event}
      (hle : prev ≤ c.toNat) (hlt : wire la ≠ [] → prev < c.toNat) (ha : Attempted A hash s a c f.isNone la) (hf : ∀ why, f = some why → TrueReason s a c la why)
      (h : Reported A hash s (i + 1) c.toNat rest fs lines l) :
      Reported A hash s i prev (a :: rest) (f :: fs) (account s.cmd.command a f ++ lines)
        ((if 0 < i ∧ 0 < s.cmd.delayMs then [.sleep s.cmd.delayMs] else []) ++ .sendTo a.ip a.port :: la ++
          (if f.isNone then [] else [.sendFailed a.ip a.port]) ++ l)

/-- The failures among destinations, in order. -/
def failuresOf : List SockAddr → List (Option SendFailure) → List (SockAddr × SendFailure)
  | a :: rest, some why :: fs => (a, why) :: failuresOf rest fs
  | _ :: rest, none :: fs => failuresOf rest fs
  | _, _ => []

/-- A run that was killed: the destinations before the one it was busy with are accounted for as if it had not been, and about that one at most the attempt is announced. -/
def Killed (A : Aead) (hash : List Char → U64) (s : Sender) (i : Nat) (dsts : List SockAddr) (lines : List ClientLine) (l : List Event) : Prop :=
  ∃ pre a rest fs ls le c la, dsts = pre ++ a :: rest ∧ Reported A hash s i s.counter.count.toNat pre fs ls le ∧ Attempted A hash s a c false la ∧
    (lines = ls ∨ lines = ls ++ [.connecting a]) ∧
    l = le ++ (if 0 < i + pre.length ∧ 0 < s.cmd.delayMs then [.sleep s.cmd.delayMs] else []) ++ .sendTo a.ip a.port :: la

/-- The destinations said to have been sent to, in order. -/
def saidSent (lines : List ClientLine) : List (Ip × Nat) :=
  lines.filterMap fun x => match x with
    | .sent _ a => some (a.ip, a.port)
    | _ => none

/-- Where datagrams were handed over to, in order. -/
def handed (log : List Event) : List (Ip × Nat) :=
  log.filterMap fun e => match e with
    | .udp ip port _ _ => some (ip, port)
    | _ => none

end Ruroco.Spec
