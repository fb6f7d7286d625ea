import Verif.Spec.Server

/-! # The words used in C117: damage to the replay-state file -/

namespace Ruroco.Spec

/-- One byte of the file at `path` is replaced by `b`; nothing else is different. -/
def ByteChanged (w w' : World) (path : Path) (i : Nat) (b : Byte) : Prop :=
  ∃ f, w.fs path = some f ∧ i < f.data.length ∧ w' = { w with fs := fun q => if q = path then some { f with data := f.data.set i b } else w.fs q }

end Ruroco.Spec
