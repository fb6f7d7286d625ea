import Verif.Model.UiFrames

/-! # What a session of the graphical client shows, told from what the user did -/

namespace Ruroco.Spec

/-- The tab shown in the latest frame: the last one selected. Frames are given latest first. -/
def shownTab : List Frame → Tab
  | [] => .dashboard
  | f :: fs => f.tab.getD (shownTab fs)

/-- The paste button pressed last, if no paste has arrived on the dashboard since: for what a paste is still being waited for. -/
def openRequest : List Frame → Option PasteTarget
  | [] => none
  | f :: fs =>
    if shownTab (f :: fs) ≠ .dashboard then openRequest fs
    else if f.pasteKey then some .key
    else if f.pasteConfig then some .config
    else if f.paste.isSome then none
    else openRequest fs

/-- A paste for the key arrives in frame `f`. -/
def KeyPasted (f : Frame) (fs : List Frame) : Prop := shownTab (f :: fs) = .dashboard ∧ f.paste ≠ none ∧ openRequest fs = some .key

/-- The key after a frame: a paste that was asked for replaces it, then what is typed, then "Generate". -/
def keyAfter (f : Frame) (fs : List Frame) (k : List Char) : List Char :=
  if shownTab (f :: fs) ≠ .dashboard then k
  else
    let k := match f.paste, openRequest fs with
      | some t, some .key => t
      | _, _ => k
    f.generate.getD ((f.keyEdit.getD id) k)

/-- The key on the dashboard: empty at the start. -/
def shownKey : List Frame → List Char
  | [] => []
  | f :: fs => keyAfter f fs (shownKey fs)

/-- The user changes the key in frame `f`: typing in its field, or "Generate". -/
def KeyTouched (f : Frame) (fs : List Frame) : Prop := shownTab (f :: fs) = .dashboard ∧ (f.keyEdit ≠ none ∨ f.generate ≠ none)

/-- A paste for the command text arrives in frame `f`. -/
def TextPasted (f : Frame) (fs : List Frame) : Prop := shownTab (f :: fs) = .dashboard ∧ f.paste ≠ none ∧ openRequest fs = some .config

/-- The user changes the command text in frame `f`: typing in its field, "Reset", "Save", or "Add Command". -/
def TextTouched (f : Frame) (fs : List Frame) : Prop :=
  (shownTab (f :: fs) = .dashboard ∧ (f.configEdit ≠ none ∨ f.reset = true ∨ f.save = true)) ∨ (shownTab (f :: fs) = .create ∧ f.add = true)

/-- Every request for the clipboard is answered in the next frame: after a paste button was pressed, the next frame is one of the dashboard with a paste event. -/
def Answered : List Frame → Prop
  | [] => True
  | [_] => True
  | g :: f :: fs => ((f.pasteKey = true ∨ f.pasteConfig = true) → shownTab (f :: fs) = .dashboard → shownTab (g :: f :: fs) = .dashboard ∧ g.paste ≠ none) ∧ Answered (f :: fs)

end Ruroco.Spec
