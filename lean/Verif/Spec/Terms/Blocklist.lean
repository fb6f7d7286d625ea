import Verif.Model.Blocklist
import Verif.Spec.Ip
import Verif.Spec.Terms.Sys

/-!
# Words used in claims, about which there are lemmas in `Lemmas/Blocklist.lean`
-/

namespace Ruroco.BlMap

/-- No key occurs twice. -/
def Nodup (m : BlMap) : Prop := (m.map Prod.fst).Nodup

end Ruroco.BlMap

namespace Ruroco

/-- A map the server can hold: distinct keys of 8 bytes. -/
structure BlMap.Wf (m : BlMap) : Prop where
  nodup : m.Nodup
  key_length : ∀ k ∈ m.map Prod.fst, k.length = 8

end Ruroco
