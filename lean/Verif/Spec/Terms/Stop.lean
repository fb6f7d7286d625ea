import Verif.Model.Stop
import Verif.Model.TwoServers
import Verif.Model.Update
import Verif.Spec.Client
import Verif.Spec.CommanderEffects
import Verif.Spec.Config
import Verif.Spec.Delivery
import Verif.Spec.IpBlocks
import Verif.Spec.Keys
import Verif.Spec.Rate
import Verif.Spec.Server
import Verif.Spec.Ui
import Verif.Spec.Units
import Verif.Spec.Terms.UpdateRun
import Verif.Spec.Terms.Installation

/-!
# Words used in the statements of `Props/Stop.lean`
-/

namespace Ruroco

open Spec (forwards)

/-- When the loop ended, or where it has got to. -/
def TimedEnd.time : TimedEnd → Option Nat
  | .running _ t => some t
  | .stopped t => some t
  | .failed t => some t
  | .died t => some t
  | .hung => none

/-- The end without its time. -/
def TimedEnd.untimed : TimedEnd → Option RunEnd
  | .running s _ => some (.running s)
  | .stopped _ => some .stopped
  | .failed _ => some .failed
  | .died _ => some .died
  | .hung => none

/-- A turn of the loop that the timed turn `x` leads to: with the system calls as they are when no signal interferes, or with `connect` interrupted (which needs a `connect` that waits). -/
def Comes (x : TimedTurn) (u : Turn) : Prop := ∀ dg src rd tl, u.recv = .datagram dg src rd tl → x.recv = .datagram dg src rd tl ∧ (u.env = x.env ∨ u.env = interruptedConnect x.env ∧ x.blocked ≠ some 0)

/-- The durations of a turn are within these bounds; `connect` waits at most `K`. -/
structure Bounds (G P K : Nat) (x : TimedTurn) : Prop where
  gap : x.gap ≤ G
  work : x.before + x.after ≤ P
  connect : ∃ b, x.blocked = some b ∧ b ≤ K

end Ruroco
