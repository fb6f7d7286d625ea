import Verif.Model.Android

/-! # What a user of the phone sees of the key, and of the keyboard -/

namespace Ruroco.Spec

/-- In this frame, on the dashboard, the user changes the key: by typing, "Generate", or pasting something. -/
def KeyChanged (s : Screen) (f : PhoneFrame) : Prop :=
  f.tab.getD s.tab = .dashboard ∧ (f.keyEdit ≠ none ∨ f.generate ≠ none ∨ (f.pasteKey = true ∧ f.clipKey ≠ none))

/-- Since the application was opened (events are given latest first), reading the key at the start and storing it after each change went well. -/
def WentWell : List PhoneEv → Prop
  | [] => True
  | .opens loads :: _ => loads = true
  | .shows f :: evs => f.putTyped = .done ∧ f.putGenerated = .done ∧ f.putPasted = .done ∧ WentWell evs
  | .flushed :: evs => WentWell evs
  | .closes :: _ => True
  | .dies _ :: _ => True

/-- The number of frames in which a text field has the focus and the call to show the keyboard works. -/
def focused : List KeyEv → Nat
  | [] => 0
  | .frame true true :: es => focused es + 1
  | _ :: es => focused es

/-- The number of frames without focus in which a call does not work. -/
def failedHides : List KeyEv → Nat
  | [] => 0
  | .frame false false :: es => failedHides es + 1
  | _ :: es => failedHides es

end Ruroco.Spec
