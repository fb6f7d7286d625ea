import Verif.Model.Sys

/-!
# Specification vocabulary: who may do what with a file
-/

namespace Ruroco.Spec

/-- A file as a process with this umask creates it: `0o666 & !umask`, and its own user and group. -/
def AsNew (umask : Nat) (f : File) : Prop := f.mode = 0o666 - (0o666 &&& umask) ∧ f.owner = .creator

/-- The same permissions and the same owner. -/
def SameAccess (f g : File) : Prop := f.mode = g.mode ∧ f.owner = g.owner

/-- Group or others have some permission on the file. -/
def OpenToOthers (f : File) : Prop := f.mode &&& 0o077 ≠ 0

/-- A name of a temporary file: that of some file, a reading of the clock and `.tmp`. -/
def TempName (q : Path) : Prop := ∃ p t, q = tmpPath p t

/-- Temporary files that are already there (left behind, C82) were left by the same user with the same umask. -/
def OwnTemps (w : World) : Prop := ∀ q f, TempName q → w.fs q = some f → AsNew w.umask f

/-- The umask takes all permissions from group and others, like that of the shipped units. -/
def PrivateUmask (umask : Nat) : Prop := umask &&& 0o077 = 0o077

end Ruroco.Spec
