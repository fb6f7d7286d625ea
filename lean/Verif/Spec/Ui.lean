import Verif.Model.Ui

/-! # What the theorems about the graphical client mean -/

namespace Ruroco.Spec

/-- No white space (Unicode `White_Space`) in the text. -/
def NoSpace (t : List Char) : Prop := ∀ c ∈ t, isWs c = false

/-- No white space in any text field. -/
def PlainCmd (d : CommandData) : Prop := NoSpace d.address ∧ NoSpace d.command ∧ NoSpace d.ip

/-- The same command: all fields but the display name. -/
def SameFields (a b : CommandData) : Prop :=
  a.address = b.address ∧ a.command = b.command ∧ a.permissive = b.permissive ∧ a.ip = b.ip ∧ a.ipv4 = b.ipv4 ∧ a.ipv6 = b.ipv6

instance (a b : CommandData) : Decidable (SameFields a b) := by unfold SameFields; infer_instance

/-- The display name is the one shown for these fields. -/
def Labelled (d : CommandData) : Prop :=
  d.name = d.command ++ "@".toList ++ d.address ++ (if d.permissive then " permissive".toList else []) ++ (if d.ipv4 then " ipv4".toList else []) ++
    (if d.ipv6 then " ipv6".toList else [])

/-- Sorted by command, then by address. -/
def SortedCmds (l : List CommandData) : Prop := l.Pairwise (fun a b => a.command < b.command ∨ (a.command = b.command ∧ a.address ≤ b.address))

/-- How many copies of `x` the list should have after what happened. -/
def copies (x : CommandData) : List UiObs → Nat
  | [] => 0
  | .started l :: _ => l.count x
  | .replaced l :: _ => l.count x
  | .added c :: os => copies x os + (if c = x then 1 else 0)
  | .deleted c :: os => if c = x then 0 else copies x os
  | .executed _ _ :: os => copies x os
  | .edited :: os => copies x os
  | .shown :: os => copies x os

/-- The result of the last execution of a command with the fields of `x` since the last deletion of such a command with its button, and since the last start; the list is in
reverse order, latest first. -/
def lastResult (x : CommandData) : List UiObs → Option Bool
  | [] => none
  | .started _ :: _ => none
  | .executed c ok :: os => if SameFields c x then some ok else lastResult x os
  | .deleted c :: os => if SameFields c x then none else lastResult x os
  | _ :: os => lastResult x os

end Ruroco.Spec
