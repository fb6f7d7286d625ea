import Verif.Model.Sys

/-!
# Specification: what a reader sees, and what a power loss may do
-/

namespace Ruroco.Spec

/-- What a process reading `p` sees: `none` if there is no file. -/
def content (w : World) (p : Path) : Option (List Byte) := (w.fs p).map File.data

/-- What may remain of a directory entry after a power loss: data that was not fsynced may be anything. -/
inductive Survives : Option File → Option File → Prop
  | absent : Survives none none
  | synced (f : File) (h : f.synced = true) : Survives (some f) (some f)
  | unsynced (f g : File) (h : f.synced = false) : Survives (some f) (some g)

/-- A power loss: every path independently shows its current entry or any entry it had since its directory was last fsynced. -/
structure PowerLoss (w w' : World) : Prop where
  entries : ∀ p, ∃ f ∈ w.fs p :: w.pend p, Survives f (w'.fs p)
  nothingPending : ∀ p, w'.pend p = []
  log : w'.log = w.log

/-- The file at `p` (or its absence) would survive a power loss now. -/
def Durable (w : World) (p : Path) : Prop := w.pend p = [] ∧ ∀ f, w.fs p = some f → f.synced = true

end Ruroco.Spec
