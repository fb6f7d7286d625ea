import Verif.Model.Server
import Verif.Spec.Commander
import Verif.Spec.Ip
import Verif.Spec.Terms.Alive
import Verif.Spec.Terms.Always
import Verif.Spec.Terms.Server

/-!
# Words used in claims, about which there are lemmas in `Lemmas/Commander.lean`
-/

namespace Ruroco

open Spec (spawns request commandFor)

/-- The commands of the table all end while being observed (`true` of every connection whose command has a deadline that passes). -/
def Ends (c : Commander) : Conn → Prop
  | .acceptFailed => True
  | .stream _ _ env => ∀ h spec, c.cmds.get h = some spec → pollLoop env.exit (deadlineOf env.startAt spec.timeout) env.rounds ≠ .waiting

end Ruroco
