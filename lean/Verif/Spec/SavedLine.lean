import Verif.Spec.Cli
import Verif.Spec.Ui

/-!
# Specification: lines of saved commands as command lines

A line is a list of words separated by white space; what a shell would make of special characters is left out.
-/

namespace Ruroco.Spec

/-- The command line that is the line `t` followed by a key file. -/
def withKeyFile (t : List Char) (keyFile : Path) : List (List Char) := splitWs t ++ ["--key-file=".toList ++ keyFile]

/-- Options written in full, the value in the next word: `--address host:80 --ipv4`. No word is empty or has white space in it. -/
inductive WrittenInFull (t : List OptDef) : Given → List (List Char) → Prop
  | nil : WrittenInFull t [] []
  | flag {d : OptDef} {g : Given} {ws : List (List Char)} : d ∈ t → d.kind = .flag → WrittenInFull t g ws → WrittenInFull t ((d.long, none) :: g) (('-' :: '-' :: d.long) :: ws)
  | value {d : OptDef} {v : List Char} {g : Given} {ws : List (List Char)} : TakesValue t d v → PlainWord v → v ≠ [] → NoSpace v → WrittenInFull t g ws →
      WrittenInFull t ((d.long, some v) :: g) (('-' :: '-' :: d.long) :: v :: ws)

end Ruroco.Spec
