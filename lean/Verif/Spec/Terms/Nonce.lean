import Verif.Model.Joint
import Verif.Model.Update
import Verif.Spec.Commander
import Verif.Spec.IpBlocks
import Verif.Spec.Nonce
import Verif.Spec.Ui
import Verif.Spec.Terms.Reseed
import Verif.Spec.Terms.SendContent

/-!
# Words used in the statements of `Props/Nonce.lean`
-/

namespace Ruroco

open Spec (datagrams nonceOf nonces draws TwelveEach NoTwoAlike OneKey Seals wire)

/-- The order of draws in a history. -/
def Earlier (a b : Nat × Nat) : Prop := a.1 < b.1 ∨ (a.1 = b.1 ∧ a.2 < b.2)

end Ruroco
