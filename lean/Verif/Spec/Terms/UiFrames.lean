import Verif.Model.ClientHistory
import Verif.Model.Update
import Verif.Spec.Client
import Verif.Spec.Ip
import Verif.Spec.Ui
import Verif.Spec.UiFrames
import Verif.Spec.Terms.Ui

/-!
# Words used in the statements of `Props/UiFrames.lean`
-/

namespace Ruroco

open Spec (shownTab openRequest KeyPasted KeyTouched TextPasted TextTouched Answered keyAfter shownKey)

/-- The frames of the refutation: the key is entered; later the key's paste button is pressed while the clipboard is empty; much later the user copies something and pastes it into the command text with Ctrl+V. -/
def straySession (k t : List Char) : List Frame :=
  [{ paste := some t, configEdit := some (fun c => c ++ t) }, { }, { pasteKey := true }, { generate := some k }]

end Ruroco
