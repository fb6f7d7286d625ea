import Verif.Model.UiFrames
import Verif.Model.Update

/-!
# The graphical client on a phone

What differs there from the client of Model/UiFrames: the key is kept by the system (/repo/src/common/android/prefs.rs, /repo/src/ui/app/dashboard_state.rs), the paste buttons read the clipboard at once
(/repo/src/ui/tabs/widgets.rs:49-60), the soft keyboard is shown and hidden by hand (/repo/src/common/android/keyboard.rs), and "Update Application" hands an address to the browser (/repo/src/ui/android.rs).
The calls into the system (JNI) are external: whether one works is a parameter.
-/

namespace Ruroco

/-- How a call of `AndroidPrefs::put_string` ends (prefs.rs:55-93): a chain of calls, the last of which, `apply`, has the effect. `failed true`: it is reported as failed although it has had its effect. -/
inductive Put where
  | done
  | failed (effect : Bool)
deriving DecidableEq, Repr

def Put.effect : Put → Bool
  | .done => true
  | .failed b => b

/-- What the phone keeps under `aes_key` (dashboard_state.rs:18; the empty text if there is nothing: prefs.rs:38, 50). `apply` changes it at once for the application, and on the disk some time later: `late` are the
former values of which one may be found instead if the phone is switched off or the application dies. -/
structure Phone where
  stored : List Char
  late : List (List Char)
deriving DecidableEq, Repr

/-- prefs.rs:55-93 `put_string` -/
def Phone.put (p : Phone) (k : List Char) (r : Put) : Phone := if r.effect then { stored := k, late := p.stored :: p.late } else p

/-- What the user and the system do during one frame on a phone. -/
structure PhoneFrame extends Frame where
  /-- what reading the clipboard gives, when a paste button is pressed (`none`: it fails, or the clipboard is empty; clipboard_read.rs) -/
  clipKey : Option (List Char) := none
  clipConfig : Option (List Char) := none
  /-- how storing the key ends, after typing, after "Generate", after pasting -/
  putTyped : Put := .done
  putGenerated : Put := .done
  putPasted : Put := .done

/-- /repo/src/ui/app/mod.rs:41-70 with dashboard_state.rs:21-35 `load_persisted_key`; `loads`: reading the stored key works. -/
def Screen.startPhone (C : ListCodec) (dir : Path) (p : Phone) (loads : Bool) : Act Screen := do
  let s ← Screen.start C dir
  pure { s with key := if loads then p.stored else [] }

/-- dashboard_config.rs:7-49 with widgets.rs:49-60. -/
def Screen.phoneConfig (C : ListCodec) (A : Aead) (hash : List Char → U64) (T : TextCodec) (dir : Path) (f : PhoneFrame) (s : Screen) : Act Screen := do
  let s ← s.dashboardConfig C A hash T dir { f.toFrame with pasteConfig := false }
  match f.pasteConfig, f.clipConfig with
  | true, some t => pure { s with ui := { s.ui with configText := t } }
  | _, _ => pure s

/-- dashboard_state.rs:37-51 `save_key`, `persist_key` -/
def Screen.saveKey (x : Screen × Phone) (k : List Char) (r : Put) : Screen × Phone := ({ x.1 with key := k }, x.2.put k r)

/-- dashboard_key.rs:10-56 with widgets.rs:49-60. -/
def Screen.phoneKey (f : PhoneFrame) (x : Screen × Phone) : Screen × Phone :=
  let x := match f.keyEdit with
    | some g => Screen.saveKey x (g x.1.key) f.putTyped
    | none => x
  let x := match f.generate with
    | some k => Screen.saveKey x k f.putGenerated
    | none => x
  let x := if f.toggle then ({ x.1 with showKey := !x.1.showKey }, x.2) else x
  match f.pasteKey, f.clipKey with
  | true, some t => Screen.saveKey x t f.putPasted
  | _, _ => x

/-- /repo/src/ui/app_frame.rs:5-43. A paste event (dashboard.rs:15-30) finds no target here: the paste buttons set none. -/
def Screen.phoneFrame (C : ListCodec) (A : Aead) (hash : List Char → U64) (T : TextCodec) (dir : Path) (x : Screen × Phone) (f : PhoneFrame) : Act (Screen × Phone) := do
  let s := { x.1 with tab := f.tab.getD x.1.tab }
  match s.tab with
  | .dashboard => do
    let s := s.receivePaste f.paste
    let s ← s.phoneConfig C A hash T dir f
    pure (Screen.phoneKey f (s, x.2))
  | .create => do
    let s ← s.create C A hash T dir f.toFrame
    pure (s, x.2)
  | .execute => do
    let s ← s.execute C A hash T dir f.toFrame
    pure (s, x.2)

/-- What happens on the phone. -/
inductive PhoneEv where
  /-- the application is opened; whether it can read the stored key -/
  | opens (loads : Bool)
  | shows (f : PhoneFrame)
  /-- what was stored has reached the disk -/
  | flushed
  /-- the application is left and ended (the system waits for what is to be stored) -/
  | closes
  /-- the application dies or the phone is switched off; `found`: what is on the disk -/
  | dies (found : List Char)

/-- A history of the phone, the latest event first. The surroundings of the application (files, clock, network) are arbitrary at each event. That it dies within a frame is covered: what may be found then may also
be found after the frame. -/
inductive PhoneRun (C : ListCodec) (A : Aead) (hash : List Char → U64) (T : TextCodec) (dir : Path) (p0 : Phone) : List PhoneEv → Option Screen → Phone → Prop
  | nil : PhoneRun C A hash T dir p0 [] none p0
  | opens {evs : List PhoneEv} {p : Phone} {s : Screen} {w w' : World} (loads : Bool) (hr : PhoneRun C A hash T dir p0 evs none p) (h : Screen.startPhone C dir p loads w = (.ok s, w')) :
      PhoneRun C A hash T dir p0 (.opens loads :: evs) (some s) p
  | shows {evs : List PhoneEv} {p p' : Phone} {s s' : Screen} {w w' : World} (f : PhoneFrame) (hr : PhoneRun C A hash T dir p0 evs (some s) p)
      (h : Screen.phoneFrame C A hash T dir (s, p) f w = (.ok (s', p'), w')) : PhoneRun C A hash T dir p0 (.shows f :: evs) (some s') p'
  | flushed {evs : List PhoneEv} {p : Phone} {o : Option Screen} (hr : PhoneRun C A hash T dir p0 evs o p) : PhoneRun C A hash T dir p0 (.flushed :: evs) o { p with late := [] }
  | closes {evs : List PhoneEv} {p : Phone} {s : Screen} (hr : PhoneRun C A hash T dir p0 evs (some s) p) : PhoneRun C A hash T dir p0 (.closes :: evs) none { p with late := [] }
  | dies {evs : List PhoneEv} {p : Phone} {o : Option Screen} (found : List Char) (hr : PhoneRun C A hash T dir p0 evs o p) (h : found ∈ p.stored :: p.late) :
      PhoneRun C A hash T dir p0 (.dies found :: evs) none ⟨found, []⟩

/-! ## The soft keyboard -/

/-- Whether the keyboard is on the screen; keyboard.rs:15 `KEYBOARD_HIDDEN`; how often it was asked to show and to hide. -/
structure Keyboard where
  visible : Bool
  hidden : Bool
  shows : Nat
  hides : Nat
deriving DecidableEq, Repr

/-- When the application starts: the static variable is `true`. -/
def Keyboard.start : Keyboard := ⟨false, true, 0, 0⟩

/-- keyboard.rs:20-32 `ensure_visible`; `works`: the call into the system, if one is made, succeeds (a failed one is taken to have no effect). -/
def Keyboard.ensureVisible (k : Keyboard) (want works : Bool) : Keyboard :=
  if want then
    if works then { k with visible := true, hidden := false, shows := k.shows + 1 } else { k with shows := k.shows + 1 }
  else if !k.hidden then
    if works then { k with visible := false, hidden := true, hides := k.hides + 1 } else { k with hides := k.hides + 1 }
  else k

inductive KeyEv where
  /-- a frame: whether a text field has the focus, and whether the call works (app_frame.rs:11-15) -/
  | frame (want works : Bool)
  /-- the user sends the keyboard away -/
  | dismiss

def Keyboard.step (k : Keyboard) : KeyEv → Keyboard
  | .frame want works => k.ensureVisible want works
  | .dismiss => { k with visible := false }

/-! ## "Update Application" -/

/-- /repo/src/ui/android.rs:24-39 `update_android`: the address opened in the browser, and the result. `prepares`: the calls that build the request to open it work; `starts`: the browser opens. Whether `startActivity` is
reported as failed does not matter (and it always is: the helper of jni_util.rs:72-79 expects an object, the method returns none). -/
def updateAndroid (releases : Option (List Release)) (prepares starts : Bool) : Option (List Char) × Except Err Unit :=
  match selectRelease releases none with
  | .error e => (none, .error e)
  | .ok r =>
    match r.assets.find? (fun a => ".apk".toList.isSuffixOf a.name) with
    | none => (none, .error .noAsset)
    | some a =>
      if prepares then (if starts then some a.url else none, .ok ()) else (none, .error .io)

end Ruroco
