import Verif.Props.Ui
import Verif.Model.UiFrames

/-!
# C50, the form for new commands

"Add Command" saves what the form shows (without white space in the command's name), and clears everything but the command's name, so that the next command is strict unless asked for again.
-/

namespace Ruroco

open Spec

theorem wp_trivial {α : Type} (m : Act α) (w : World) : wp m w (fun _ _ => True) := trivial

theorem addCommand_list (C : ListCodec) (path : Path) (l : List CommandData) (c : CommandData) (w : World) :
    wp (addCommand C path l c) w (fun o _ => ∀ l', o = .ok l' → l' = sortCmds (l ++ [c])) := by
  unfold addCommand
  simp only
  rw [wp_bind]
  refine wp_mono (wp_trivial _ w) ?_
  intro o w' _
  cases o with
  | ok _ => rintro l' h; cases h; rfl
  | err _ => exact nofun
  | crash => exact nofun

/-- **C50**: a frame in which "Add Command" is pressed, with the form as it is after what the user typed in this frame: exactly one command is added, with the fields of the form; the list stays
sorted; of the form only the command's name is left. -/
theorem C50_add_saves_the_form (C : ListCodec) (A : Aead) (hash : List Char → U64) (T : TextCodec) (dir : Path) (f : Frame) (s s' : Screen) (w w' : World) (hadd : f.add = true)
    (h : s.create C A hash T dir f w = (.ok s', w')) :
    ∃ c, SameFields c ⟨(f.formEdit s.form).address, (f.formEdit s.form).command.filter (fun x => !isWs x), (f.formEdit s.form).permissive, (f.formEdit s.form).ip, (f.formEdit s.form).ipv4,
        (f.formEdit s.form).ipv6, []⟩ ∧ Labelled c ∧ SortedCmds s'.ui.list ∧ s'.ui.list.Perm (c :: s.ui.list) ∧
      s'.form = ⟨[], (f.formEdit s.form).command.filter (fun x => !isWs x), [], false, false, false⟩ := by
  generalize hform : f.formEdit s.form = form
  let c := addCommandName ⟨form.address, form.command.filter (fun x => !isWs x), form.permissive, form.ip, form.ipv4, form.ipv6, []⟩
  have key : wp (s.create C A hash T dir f) w (fun o _ => ∀ s', o = .ok s' → s'.ui.list = sortCmds (s.ui.list ++ [c]) ∧
      s'.form = ⟨[], form.command.filter (fun x => !isWs x), [], false, false, false⟩) := by
    unfold Screen.create Screen.act
    simp only [hadd, if_true, hform]
    rw [wp_bind, wp_bind]
    unfold Ui.act
    simp only
    rw [wp_bind]
    refine wp_mono (addCommand_list C (listPath dir) _ _ w) ?_
    intro o w' ho
    cases o with
    | ok l =>
      have hl := ho l rfl
      rintro s' hs'
      cases hs'
      have hff : (form.command.filter (fun x => !isWs x)).filter (fun x => !isWs x) = form.command.filter (fun x => !isWs x) := by
        rw [List.filter_filter]
        simp only [Bool.and_self]
      rw [hff] at hl
      exact ⟨hl, rfl⟩
    | err _ => exact nofun
    | crash => exact nofun
  unfold wp at key
  rw [h] at key
  obtain ⟨h1, h2⟩ := key s' rfl
  refine ⟨c, addCommandName_fields _, addCommandName_labelled _, ?_, ?_, h2⟩
  · rw [h1]
    exact sortCmds_sorted _
  · rw [h1]
    exact (sortCmds_perm _).trans (by rw [List.perm_comm]; exact List.perm_append_comm (l₁ := [c]))

/-- A form with a blank in the command's name. -/
def exFormFrame : Frame := { formEdit := fun _ => ⟨"h:80".toList, "o p".toList, [], true, false, false⟩, add := true }

example : (match (Screen.create ⟨fun _ => some [1], fun _ => none, fun _ => none⟩ toyAead (fun _ => 7) ⟨fun _ => [], fun _ => some []⟩ "/c".toList exFormFrame
      { ui := ⟨[], [], fun _ => none⟩, tab := .create, key := [], showKey := false, target := none, form := ⟨[], "default".toList, [], false, false, false⟩ } (exUiWorld [])).1 with
    | .ok s => some (s.ui.list, s.form) | _ => none) =
    some ([⟨"h:80".toList, "op".toList, true, [], false, false, "op@h:80 permissive".toList⟩], ⟨[], "op".toList, [], false, false, false⟩) := by decide +kernel

end Ruroco
