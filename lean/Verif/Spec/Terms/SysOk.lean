import Verif.Model.Sys
import Verif.Spec.Terms.Sys

/-!
# Words used in claims, about which there are lemmas in `Lemmas/SysOk.lean`
-/

namespace Ruroco

/-- All coming system calls work. -/
def AllOk (w : World) : Prop := ∀ c ∈ w.oracle, c = .ok

end Ruroco
