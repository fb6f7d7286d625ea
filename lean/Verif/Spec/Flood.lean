import Verif.Spec.Server
import Verif.Spec.Rate
import Verif.Spec.Delivery

/-!
# Specification vocabulary for floods of datagrams
-/

namespace Ruroco.Spec

/-- The datagram opens under the loaded key it names. Anything else can be made without any key. -/
def OpensAny (A : Aead) (s : Server) (dg : List Byte) : Prop :=
  ∃ h pt, s.handlers.get (dg.take 8) = some h ∧ A.dec h.key (slice dg 8 20) (slice dg 20 36) (slice dg 36 94) = some pt

/-- The readings of the monotonic clock while one datagram is handled, from time `t` on, in program order. -/
def InTime1 (t : Nat) (rd : Readings) : Prop :=
  (∀ ip, t ≤ rd.sweep ip ∧ rd.sweep ip ≤ rd.insert) ∧ rd.insert ≤ rd.ipElapsed ∧ rd.ipElapsed ≤ rd.ipReset ∧ rd.ipReset ≤ rd.globalElapsed ∧ rd.globalElapsed ≤ rd.globalReset

/-- The monotonic clock never goes back while these datagrams are handled one after the other, from time `t` on. -/
def InTime (t : Nat) : List Arrival → Prop
  | [] => True
  | a :: as => InTime1 t a.rd ∧ InTime a.rd.globalReset as

/-- The datagram was handled before time `t`, by at least a second. -/
def LongBefore (t : Nat) (a : Arrival) : Prop := a.rd.globalReset + 1000000000 ≤ t

/-- The datagram is handled within the second from time `t` on. -/
def WithinSecond (t : Nat) (a : Arrival) : Prop := (∀ ip, t ≤ a.rd.sweep ip) ∧ a.rd.globalReset < t + 1000000000

end Ruroco.Spec
