import Verif.Model.UpdateCli
import Verif.Spec.Config

/-!
# Words used in the statements of `Props/ConfDir.lean`
-/

namespace Ruroco

/-- The directory is given in a way that does not depend on where the program is started. -/
def Fixed (v : EnvVars) : Prop := (∃ p, v.confDir = some p ∧ isAbsolute p = true) ∨ (v.confDir = none ∧ ∃ h, v.home = some h ∧ isAbsolute h = true)

/-- The directory a path names for a process: with the working directory in front if it is relative, and with links resolved (as far as they can be). -/
def dirNamed (e : PathEnv) (p : Path) : Path :=
  let full := if isAbsolute p then p else pathPush (e.cwd.getD []) p
  (e.canon full).getD full

end Ruroco
