import Verif.Model.Update
import Verif.Spec.Terms.Always

/-!
# Words used in claims, about which there are lemmas in `Lemmas/Update.lean`
-/

namespace Ruroco

/-- No `stat`, backup or rollback failed. -/
def Smooth (l : List Event) : Prop := ∀ p, .statFailed p ∉ l ∧ .copyFailed p ∉ l ∧ .rollbackFailed p ∉ l

/-- The owner of a copy: that of the file it was written over, or whoever made it. -/
def copyOwner : Option File → Owner
  | some g => g.owner
  | none => .creator

/-- Same data and mode, or both absent. -/
def SameBin (a b : Option File) : Prop := a.map (fun f => (f.data, f.mode)) = b.map (fun f => (f.data, f.mode))

end Ruroco
