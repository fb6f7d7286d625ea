import Verif.Model.ClientHistory
import Verif.Spec.Android
import Verif.Spec.Client
import Verif.Spec.Ip
import Verif.Spec.Ui
import Verif.Spec.UiFrames
import Verif.Spec.Terms.UiFrames

/-!
# Words used in the statements of `Props/Android.lean`
-/

namespace Ruroco

open Spec (KeyChanged WentWell focused failedHides)

/-- The keyboard after these events (the latest first). -/
def keyboardAfter : List KeyEv → Keyboard
  | [] => .start
  | e :: es => (keyboardAfter es).step e

end Ruroco
