import Verif.Model.Config

/-!
# Specification: ignored keys (C67)
-/

namespace Ruroco.Spec

/-- Whether a key is ignored by a program that reads a file with `read`: wherever it stands in whatever file, and with whatever value, the program does with the file what it would do without
that line. -/
def Ignored (read : Table → Except Err α) (k : List Char) : Prop := ∀ (a b : Table) (x : Toml), read (a ++ (k, x) :: b) = read (a ++ b)

/-- The names in a command's table in commands.toml. -/
def commandSettings : List (List Char) := ["cmd".toList, "timeout_sec".toList]

end Ruroco.Spec
