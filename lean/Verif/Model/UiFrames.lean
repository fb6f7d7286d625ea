import Verif.Model.Ui

/-!
# The graphical client frame by frame

/repo/src/ui/app_frame.rs:5-43, /repo/src/ui/tabs/dashboard.rs:10-57, dashboard_config.rs:7-49, dashboard_key.rs:10-56, create.rs:7-51, execute.rs:14-66, widgets.rs:49-66, as built for Linux.

The toolkit is external: what the user does during one frame is a parameter. Editing a text field is a function of the text in it. The buttons "Copy", "Reseed Counter" and "Update Application" do not
change this state and are left out here (reseeding: C40, updating: C43-C45).
-/

namespace Ruroco

/-- /repo/src/ui/app/dashboard_state.rs:5-8 -/
inductive PasteTarget where
  | key | config
deriving DecidableEq, Repr

/-- /repo/src/ui/app/mod.rs:11-15 -/
inductive Tab where
  | dashboard | create | execute
deriving DecidableEq, Repr

/-- app/mod.rs:17-24 `CreateForm` -/
structure Form where
  address : List Char
  command : List Char
  ip : List Char
  permissive : Bool
  ipv4 : Bool
  ipv6 : Bool
deriving DecidableEq, Repr

/-- app/mod.rs:26-33 `RurocoApp` with dashboard_state.rs:10-15 `DashboardState`; list, text and colours are the `Ui` of Model/Ui. -/
structure Screen where
  ui : Ui
  tab : Tab
  key : List Char
  showKey : Bool
  target : Option PasteTarget
  form : Form

/-- What the user and the system do during one frame. -/
structure Frame where
  /-- a click on a tab -/
  tab : Option Tab := none
  /-- the first paste event of the frame: Ctrl+V, or the answer to a request for the clipboard. (An empty clipboard gives no event.) -/
  paste : Option (List Char) := none
  /-- typing (or pasting) into the text, if that happens -/
  configEdit : Option (List Char → List Char) := none
  reset : Bool := false
  save : Bool := false
  pasteConfig : Bool := false
  keyEdit : Option (List Char → List Char) := none
  /-- "Generate", with the key drawn -/
  generate : Option (List Char) := none
  toggle : Bool := false
  pasteKey : Bool := false
  formEdit : Form → Form := id
  add : Bool := false
  delete : Option CommandData := none
  exec : Option (ExecEnv × CommandData) := none

/-- app/mod.rs:41-70 `new`; `DEFAULT_COMMAND` is `default` (/repo/src/client/config/mod.rs). -/
def Screen.start (C : ListCodec) (dir : Path) : Act Screen := do
  let (u, _) ← Ui.start C dir
  pure { ui := u, tab := .dashboard, key := [], showKey := false, target := none, form := ⟨[], "default".toList, [], false, false, false⟩ }

/-- dashboard.rs:15-30: a paste event is given to whoever asked for one. -/
def Screen.receivePaste (s : Screen) : Option (List Char) → Screen
  | none => s
  | some t =>
    match s.target with
    | none => s
    | some .key => { s with target := none, key := t }
    | some .config => { s with target := none, ui := { s.ui with configText := t } }

/-- An action of the user on the list, the text or the colours. -/
def Screen.act (C : ListCodec) (A : Aead) (hash : List Char → U64) (T : TextCodec) (dir : Path) (s : Screen) (a : UiAction) : Act Screen := do
  let (u, _) ← s.ui.act C A hash T dir a
  pure { s with ui := u }

def Screen.actOpt (C : ListCodec) (A : Aead) (hash : List Char → U64) (T : TextCodec) (dir : Path) (s : Screen) : Option UiAction → Act Screen
  | some a => s.act C A hash T dir a
  | none => pure s

/-- dashboard_config.rs:7-49 -/
def Screen.dashboardConfig (C : ListCodec) (A : Aead) (hash : List Char → U64) (T : TextCodec) (dir : Path) (f : Frame) (s : Screen) : Act Screen := do
  let s ← s.actOpt C A hash T dir (f.configEdit.map fun g => .edit (g s.ui.configText))
  let s ← s.actOpt C A hash T dir (if f.reset then some .reset else none)
  let s ← s.actOpt C A hash T dir (if f.save then some .save else none)
  pure (if f.pasteConfig then { s with target := some .config } else s)

/-- dashboard_key.rs:10-56 -/
def Screen.dashboardKey (f : Frame) (s : Screen) : Screen :=
  let s := match f.keyEdit with
    | some g => { s with key := g s.key }
    | none => s
  let s := match f.generate with
    | some k => { s with key := k }
    | none => s
  let s := if f.toggle then { s with showKey := !s.showKey } else s
  if f.pasteKey then { s with target := some .key } else s

/-- create.rs:7-51 -/
def Screen.create (C : ListCodec) (A : Aead) (hash : List Char → U64) (T : TextCodec) (dir : Path) (f : Frame) (s : Screen) : Act Screen := do
  let form := f.formEdit s.form
  let form := { form with command := form.command.filter (fun x => !isWs x) }
  let s := { s with form := form }
  if f.add then do
    let s ← s.act C A hash T dir (.add form.address form.command form.ip form.permissive form.ipv4 form.ipv6)
    pure { s with form := { form with address := [], ip := [], permissive := false, ipv4 := false, ipv6 := false } }
  else pure s

/-- execute.rs:14-66: deletion first, then execution with the key of the dashboard. -/
def Screen.execute (C : ListCodec) (A : Aead) (hash : List Char → U64) (T : TextCodec) (dir : Path) (f : Frame) (s : Screen) : Act Screen := do
  let s ← s.actOpt C A hash T dir (f.delete.map .delete)
  s.actOpt C A hash T dir (f.exec.map fun x => .exec x.1 s.key x.2)

/-- app_frame.rs:5-43: the tabs, then the active one. -/
def Screen.frame (C : ListCodec) (A : Aead) (hash : List Char → U64) (T : TextCodec) (dir : Path) (s : Screen) (f : Frame) : Act Screen := do
  let s := { s with tab := f.tab.getD s.tab }
  match s.tab with
  | .dashboard => do
    let s := s.receivePaste f.paste
    let s ← s.dashboardConfig C A hash T dir f
    pure (s.dashboardKey f)
  | .create => s.create C A hash T dir f
  | .execute => s.execute C A hash T dir f

/-- A session: the application is started and shows frames; between frames the surroundings may change arbitrarily except for the file of the list. It may be ended between two frames or die during one, and
be started again. `fs`: the frames since the last start, the latest first. -/
inductive Session (C : ListCodec) (A : Aead) (hash : List Char → U64) (T : TextCodec) (dir : Path) (w0 : World) : List Frame → Screen → World → Prop
  | start {w : World} {s : Screen} (h : Screen.start C dir w0 = (.ok s, w)) : Session C A hash T dir w0 [] s w
  | frame {w w1 w2 : World} {fs : List Frame} {s s' : Screen} (f : Frame) (hr : Session C A hash T dir w0 fs s w) (hfile : w1.fs (listPath dir) = w.fs (listPath dir))
      (h : s.frame C A hash T dir f w1 = (.ok s', w2)) : Session C A hash T dir w0 (f :: fs) s' w2
  | restart {w w1 w2 : World} {fs : List Frame} {s s' : Screen} (hr : Session C A hash T dir w0 fs s w) (hfile : w1.fs (listPath dir) = w.fs (listPath dir))
      (h : Screen.start C dir w1 = (.ok s', w2)) : Session C A hash T dir w0 [] s' w2
  | crash {w w1 w2 w3 w4 : World} {fs : List Frame} {s s' : Screen} {o : Out Screen} (f : Frame) (hr : Session C A hash T dir w0 fs s w) (hfile : w1.fs (listPath dir) = w.fs (listPath dir))
      (hc : s.frame C A hash T dir f w1 = (o, w2)) (hfile' : w3.fs (listPath dir) = w2.fs (listPath dir)) (h : Screen.start C dir w3 = (.ok s', w4)) : Session C A hash T dir w0 [] s' w4

end Ruroco
