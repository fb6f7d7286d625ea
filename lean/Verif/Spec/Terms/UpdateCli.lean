import Verif.Model.ClientHistory
import Verif.Spec.Client
import Verif.Spec.Ip
import Verif.Spec.Ui
import Verif.Spec.UpdateCli
import Verif.Spec.Terms.Server
import Verif.Spec.Terms.Update

/-!
# Words used in the statements of `Props/UpdateCli.lean`
-/

namespace Ruroco

open Spec (ChosenRelease Authentic UpToDate InstallDir Unusable Installed Made Unforgeable AssetUrl Received content)

/-- A file an update for directory `d` may change: its lock file, the binaries, their copies and temporary files, and the file by which writing is tried (never one that was there). -/
def MayChange (confDir : Path) (D : DirEnv) (args : UpdateArgs) (w : World) (q : Path) : Prop :=
  q = confDir ++ "/client.lock".toList ∨ ∃ d, InstallDir args D.home d ∧
    (((∃ x ∈ D.draws, q = d ++ "/.tmp".toList ++ x) ∧ w.fs q = none) ∨
      ∃ b ∈ Spec.binaries args.server, q = d ++ "/".toList ++ b.1.toList ∨ q = d ++ "/".toList ++ b.1.toList ++ ".old".toList ∨ IsTmpOf (d ++ "/".toList ++ b.1.toList) q)

end Ruroco
