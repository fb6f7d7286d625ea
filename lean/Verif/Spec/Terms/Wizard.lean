import Verif.Model.ClientHistory
import Verif.Model.Wizard
import Verif.Spec.Client
import Verif.Spec.Ip
import Verif.Spec.Ui
import Verif.Spec.UpdateCli
import Verif.Spec.Terms.UpdateCli

/-!
# Words used in the statements of `Props/Wizard.lean`
-/

namespace Ruroco

open Spec

/-- The state of the machine after a sequence of runs, each with its own surroundings and its own failures or crash. -/
def wizardRuns : List (WizEnv × Env) → World → World
  | [], w => w
  | r :: rs, w => wizardRuns rs (wizardRun r.1 (w.withEnv r.2 [])).2

/-- The file can be read by a process of this user and group (that is not root). -/
def ReadableBy (w : World) (p : Path) (user group : List Char) : Prop := ∃ f, w.fs p = some f ∧
  ((f.owner.user = user ∧ f.mode &&& 0o400 ≠ 0) ∨ (f.owner.user ≠ user ∧ f.owner.group = group ∧ f.mode &&& 0o040 ≠ 0) ∨ (f.owner.user ≠ user ∧ f.owner.group ≠ group ∧ f.mode &&& 0o004 ≠ 0))

end Ruroco
