import Verif.Model.Sys
import Verif.Spec.Terms.Sys

/-!
# Words used in claims, about which there are lemmas in `Lemmas/Always.lean`
-/

namespace Ruroco

/-- The trace grew by events satisfying `P`. -/
def Logs (P : Event → Prop) (w w' : World) : Prop := ∃ l, w'.log = w.log ++ l ∧ ∀ e ∈ l, P e

end Ruroco
