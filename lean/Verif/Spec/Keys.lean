import Verif.Model.Server

/-!
# Specification vocabulary: key files
-/

namespace Ruroco.Spec

/-- A key file: a regular file called `<something>.key`. -/
def IsKeyFile (e : DirEntry) : Prop := e.isFile = true ∧ ∃ stem, stem ≠ [] ∧ e.name = stem ++ ".key".toList

/-- The key a file contains, if it contains one. -/
def keyOf (e : DirEntry) : Option CryptoHandler :=
  match e.content with
  | none => none
  | some text =>
    match CryptoHandler.create text with
    | .ok h => some h
    | .error _ => none

end Ruroco.Spec
