import Verif.Spec.Terms.UpdateCli

/-!
# Words used in the statements of `Props/UpdateSelf.lean`
-/

namespace Ruroco

/-- The program of the command line client in directory `d`. -/
def clientIn (d : Path) : Path := d ++ "/ruroco-client".toList

/-- `ruroco-client update` without options. -/
def plainUpdate : UpdateArgs := { force := false, version := none, binPath := none, server := false }

end Ruroco
