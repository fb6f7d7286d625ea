import Verif.Spec.Restart
import Verif.Spec.Server
import Verif.Spec.Terms.Server
import Verif.Spec.Terms.Codec

/-!
# Words used in the statements of `Props/Restart.lean`
-/

namespace Ruroco

open Spec

/-- What systemd does with a service whose unit sets `Restart=always` and nothing else (its defaults): a restart 100 ms after the end, given up after five starts within ten seconds. -/
def unitPolicy : RestartPolicy := ⟨true, 100, 10000, 5⟩

end Ruroco
