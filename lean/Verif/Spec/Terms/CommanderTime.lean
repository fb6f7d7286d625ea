import Verif.Model.CommanderTime
import Verif.Model.Server
import Verif.Spec.Commander
import Verif.Spec.Ip
import Verif.Spec.IpBlocks
import Verif.Spec.Terms.Commander

/-!
# Words used in the statements of `Props/CommanderTime.lean`
-/

namespace Ruroco

open Spec (Timely)

/-- A connection is served by a machine that is not overloaded: the commander runs again within `δ` after any wait, the calls around the child take at most `ε` before its start and
`ε` after its end, polling goes on until the time limit of `limit` seconds has passed. `t`: when the request has been read. -/
structure Unhindered (limit δ ε : Nat) (t : Nat) (k : TimedConn) : Prop where
  wakes : ∀ x ∈ k.wakes, x.1 ≤ δ
  before : k.before ≤ ε
  after : k.after ≤ ε
  timely : Timely δ (t + k.before) k.rounds
  long : ∃ r ∈ k.rounds, t + k.before + limit * 1000000000 ≤ r.now
  fits : (t + k.before) / 1000000000 + limit < 2 ^ 63

/-- This holds for all connections, each started when the one before it is done. -/
def AllUnhindered (c : Commander) (limit δ ε : Nat) : Nat → List TimedConn → Prop
  | _, [] => True
  | now, k :: ks => Unhindered limit δ ε (k.read (max now k.at_)).2 k ∧ ∀ t, c.cycleEnd k (max now k.at_) = some t → AllUnhindered c limit δ ε t ks

end Ruroco
