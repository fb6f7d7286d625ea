import Verif.Model.Run
import Verif.Spec.Client
import Verif.Spec.Delivery
import Verif.Spec.Keys
import Verif.Spec.Rate
import Verif.Spec.Secrecy
import Verif.Spec.Server
import Verif.Spec.Terms.ClientHistory
import Verif.Spec.Terms.KeyLife

/-!
# Words used in the statements of `Props/Secrecy.lean`
-/

namespace Ruroco

open Spec (SealAlike OpenAlike EntryAlike Pointwise DirAlike EvAlike KeyFileAlike CEvAlike)

/-- A box that seals and opens under a key it does not show; it ignores the key it is given. -/
def sealingBox (A : Aead) (key : List Byte) : Aead := ⟨fun _ => A.enc key, fun _ => A.dec key⟩

/-- The text of a key with this id and thirty-two zero bytes in place of the key. -/
def blankKeyText (id : List Byte) : List Char := b64Encode (id ++ List.replicate 32 0)

end Ruroco
