import Verif.Model.Sys

/-!
# Words used in claims, about which there are lemmas in `Lemmas/Sys.lean`
-/

namespace Ruroco

/-- Temporary files of `path`. -/
def IsTmpOf (path q : Path) : Prop := ∃ n, q = tmpPath path n

end Ruroco
