import Verif.Model.ClientHistory
import Verif.Model.Update
import Verif.Spec.Client
import Verif.Spec.Ip
import Verif.Spec.Ui
import Verif.Spec.Terms.ClientOk
import Verif.Spec.Terms.UpdateRun
import Verif.Spec.Terms.ClientHistory

/-!
# Words used in the statements of `Props/Ui.lean`
-/

namespace Ruroco

open Spec

/-- The list after an action that is carried out. -/
def listAfter (u : Ui) : UiAction → List CommandData
  | .add address command ip permissive ipv4 ipv6 => sortCmds (u.list ++ [addCommandName ⟨address, command.filter (fun x => !isWs x), permissive, ip, ipv4, ipv6, []⟩])
  | .delete c => u.list.filter (fun x => decide (x ≠ c))
  | .save => sortCmds (parseConfig u.configText)
  | .exec _ _ _ => u.list
  | .edit _ => u.list
  | .reset => u.list

/-- The file holds this list. -/
def Stored (C : ListCodec) (w : World) (p : Path) (l : List CommandData) : Prop := ∃ b f, C.enc l = some b ∧ w.fs p = some f ∧ f.data = b

/-- The serialiser and parser of the `toml` crate: what was written is read back, without the names. -/
def ListCodec.Correct (C : ListCodec) : Prop := ∀ l, ∃ b, C.enc l = some b ∧ C.dec b = some (l.map (fun d => { d with name := [] }))

/-- The colour of a result. -/
def resultColor : Option Bool → Color
  | some true => .green
  | some false => .red
  | none => .gray

/-- The text was last set by the program and not edited since, and no command was deleted since (latest first). -/
def untouchedText : List UiObs → Bool
  | [] => false
  | .started _ :: _ => true
  | .added _ :: _ => true
  | .replaced _ :: _ => true
  | .shown :: _ => true
  | .executed _ _ :: os => untouchedText os
  | .edited :: _ => false
  | .deleted _ :: _ => false

end Ruroco
