import Verif.Model.ClientHistory
import Verif.Model.Update
import Verif.Spec.Client
import Verif.Spec.Commander
import Verif.Spec.IpBlocks
import Verif.Spec.Server
import Verif.Spec.Ui
import Verif.Spec.Terms.UpdateRun
import Verif.Spec.Terms.EndToEnd

/-!
# Words used in the statements of `Props/SendContent.lean`
-/

namespace Ruroco

open Spec (Seals IsPacket datagrams)

/-- Settings a `send` can not work with: another client is running, an address without a usable port, an `--ip` that is no address, an unreadable or malformed key. -/
def Unusable (held : Bool) (cmd : SendCmd) (env : SendEnv) : Prop :=
  held = true ∨ (∀ a, ensurePort cmd.address 80 ≠ .ok a) ∨ (∃ t, cmd.ip = some t ∧ parseIp t = none) ∨ ∀ key h, env.keyText = some key → CryptoHandler.create (trim key) ≠ .ok h

end Ruroco
