import Verif.Model.AtOnceJoint
import Verif.Model.Run
import Verif.Model.Update
import Verif.Spec.Commander
import Verif.Spec.Config
import Verif.Spec.Delivery
import Verif.Spec.InOrder
import Verif.Spec.IpBlocks
import Verif.Spec.Keys
import Verif.Spec.Nonce
import Verif.Spec.Rate
import Verif.Spec.Stamp
import Verif.Spec.Ui
import Verif.Spec.Terms.Installation
import Verif.Spec.Terms.Nonce

/-!
# Words used in the statements of `Props/AtOnceJoint.lean`
-/

namespace Ruroco.AtOnce

open Ruroco.Spec Ruroco.Spec.AtOnce

/-- Readings of the clock during an event on the client machine. -/
def clockOf : CEv → List (Option U128)
  | .send env _ _ _ => env.clock
  | .reseed env _ => env.clock
  | _ => []

end Ruroco.AtOnce
