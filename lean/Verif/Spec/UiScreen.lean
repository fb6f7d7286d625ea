import Verif.Spec.UiFrames

/-!
# The commands, their text and the form, told from what the user did

`sortCmds`, `showList` and `parseConfig` are what C49 and C50 are about: a stable sort by command and address, the commands one per line, and back.
-/

namespace Ruroco.Spec

/-- What the tab "Create" shows after a frame: what was typed and ticked, where blanks in the command are not accepted; after "Add Command" only the command stays. -/
def typed (f : Frame) (x : Form) : Form := { f.formEdit x with command := (f.formEdit x).command.filter (fun c => !isWs c) }

/-- The form: at first only the command `default`. Frames are given latest first. -/
def shownForm : List Frame → Form
  | [] => ⟨[], ['d', 'e', 'f', 'a', 'u', 'l', 't'], [], false, false, false⟩
  | f :: fs =>
    if shownTab (f :: fs) ≠ .create then shownForm fs
    else if f.add then ⟨[], (typed f (shownForm fs)).command, [], false, false, false⟩
    else typed f (shownForm fs)

/-- The command that "Add Command" makes of the form. -/
def commandOf (x : Form) : CommandData := addCommandName { address := x.address, command := x.command, permissive := x.permissive, ip := x.ip, ipv4 := x.ipv4, ipv6 := x.ipv6, name := [] }

/-- The text a dashboard frame has before "Save": a paste that was asked for replaces it, then what is typed, and "Reset" shows the commands `l` again. -/
def textBeforeSave (f : Frame) (fs : List Frame) (l : List CommandData) (t : List Char) : List Char :=
  if f.reset then showList l
  else (f.configEdit.getD id) (match f.paste, openRequest fs with
    | some p, some .config => p
    | _, _ => t)

/-- The commands and the text of the dashboard, given the commands at the start. -/
def shownCommands (l0 : List CommandData) : List Frame → List CommandData × List Char
  | [] => (l0, showList l0)
  | f :: fs =>
    let (l, t) := shownCommands l0 fs
    match shownTab (f :: fs) with
    | .dashboard =>
      let t := textBeforeSave f fs l t
      if f.save then (sortCmds (parseConfig t), showList (sortCmds (parseConfig t))) else (l, t)
    | .create =>
      if f.add then
        let l := sortCmds (l ++ [commandOf (typed f (shownForm fs))])
        (l, showList l)
      else (l, t)
    | .execute =>
      match f.delete with
      | some c => (l.filter (fun x => decide (x ≠ c)), t)
      | none => (l, t)

/-- Whether the key is shown in clear: not at the start, and changed by each click on the button that shows and hides it. -/
def keyVisible : List Frame → Bool
  | [] => false
  | f :: fs => if shownTab (f :: fs) = .dashboard ∧ f.toggle then !keyVisible fs else keyVisible fs

end Ruroco.Spec
