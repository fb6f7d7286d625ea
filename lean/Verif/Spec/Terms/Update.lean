import Verif.Spec.Fs
import Verif.Spec.Update
import Verif.Spec.Terms.UpdateRun

/-!
# Words used in the statements of `Props/Update.lean`
-/

namespace Ruroco

open Spec

/-- All binaries of the release verify. -/
def AllAuthentic (u : Updater) (env : UpdEnv) (r : Release) : Prop := ∀ (i : Nat) (t : Target), u.targets[i]? = some t → ∃ bytes, Authentic env r i t.pfx bytes

/-- The owner of the file may execute it and is `user`. -/
def ExecutableBy (w : World) (p : Path) (user : List Char) : Prop := ∃ f, w.fs p = some f ∧ ((f.owner.user = user ∧ f.mode &&& 0o100 ≠ 0) ∨ f.mode &&& 0o001 ≠ 0)

end Ruroco
