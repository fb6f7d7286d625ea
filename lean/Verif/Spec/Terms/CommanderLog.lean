import Verif.Spec.CommanderLog
import Verif.Spec.Ip
import Verif.Spec.IpBlocks
import Verif.Spec.Terms.Commander

/-!
# Words used in the statements of `Props/CommanderLog.lean`
-/

namespace Ruroco

open Spec

/-- The two capture files of an execution that reads the clock at `a` and `b`. -/
def captureOut (pre : Path) (a : U128) : Path := pre ++ (toString a.toNat).toList ++ "-out".toList

@[inherit_doc captureOut] def captureErr (pre : Path) (b : U128) : Path := pre ++ (toString b.toNat).toList ++ "-err".toList

end Ruroco
