import Verif.Model.ClientHistory
import Verif.Spec.Client
import Verif.Spec.Ip
import Verif.Spec.Terms.Always
import Verif.Spec.Terms.Server

/-!
# Words used in the statements of `Props/ClientHistory.lean`
-/

namespace Ruroco

open Spec (wire counterOnDisk IsPacket PowerLoss Survives Durable)

/-- The power losses of the history, if any, need working directory fsyncs: their failure is ignored by the program (fs.rs:50-56). -/
def PowerSafe (dir : Path) (evs : List CEv) (w' : World) : Prop := .power ∈ evs → .dirSyncFailed (counterPath dir) ∉ w'.log

end Ruroco
