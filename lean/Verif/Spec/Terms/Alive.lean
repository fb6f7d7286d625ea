import Verif.Model.Server
import Verif.Spec.Terms.SysOk

/-!
# Words used in claims, about which there are lemmas in `Lemmas/Alive.lean`
-/

namespace Ruroco

/-- The process is not killed during the event. -/
def NoCrash (o : List Choice) : Prop := ∀ c ∈ o, ∀ k, c ≠ .crash k

end Ruroco
