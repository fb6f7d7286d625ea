import Verif.Spec.Server

/-! # The words used in C118: the replay state is gone, or an older one is back -/

namespace Ruroco.Spec

/-- There is no replay-state file in `dir`, and no power loss brings one back; what was logged stays. Nothing is said about the rest. -/
structure StateGone (w w' : World) (dir : Path) : Prop where
  file : w'.fs (blocklistPath dir) = none
  pending : w'.pend (blocklistPath dir) = []
  log : w'.log = w.log

/-- The replay-state file is the one of an earlier moment `w0` again; nothing else is different. -/
def Restored (w0 w w' : World) (dir : Path) : Prop :=
  ∃ f, w0.fs (blocklistPath dir) = some f ∧ w' = { w with fs := fun q => if q = blocklistPath dir then some f else w.fs q }

end Ruroco.Spec
