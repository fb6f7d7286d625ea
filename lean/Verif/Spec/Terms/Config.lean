import Verif.Spec.Commander
import Verif.Spec.Config
import Verif.Spec.Ip
import Verif.Spec.IpBlocks
import Verif.Spec.Terms.Commander

/-!
# Words used in the statements of `Props/Config.lean`
-/

namespace Ruroco

open Spec (lookup DistinctKeys IsText IsNumber IsFlag IsAddresses Required Optional Defaulted ServerSettings CommanderSettings IsCommand CommandsFile)

/-- The tables inside commands.toml have distinct keys, too. -/
def DistinctInside (entries : Table) : Prop := ∀ name l, (name, Toml.tbl l) ∈ entries → DistinctKeys l

end Ruroco
