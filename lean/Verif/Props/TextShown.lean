import Verif.Props.Ui
import Verif.Spec.TextShown

/-!
# C61: exactly when saving the unedited command text changes the list
-/

namespace Ruroco

open Spec

/-- The text is that of the list as it was when the program set the text; the list now is that one without the commands deleted since. -/
theorem configText_shown {C : ListCodec} {A : Aead} {hash : List Char → U64} {T : TextCodec} {dir : Path} {w w' : World} {os : List UiObs} {u : Ui} (h : UiRun C A hash T dir w os u w')
    {os0 : List UiObs} {gone : List CommandData} (ht : textShown os.reverse = some (os0, gone)) :
    ∃ l, GoodList l ∧ (∀ x, l.count x = copies x os0) ∧ u.configText = showList l ∧ u.list = l.filter (fun x => decide (x ∉ gone)) := by
  have now : ∀ {gone : List CommandData} {os : List UiObs} {u : Ui} {w w'}, UiRun C A hash T dir w os u w' → u.configText = showList u.list → os.reverse = os0 → gone = [] →
      ∃ l, GoodList l ∧ (∀ x, l.count x = copies x os0) ∧ u.configText = showList l ∧ u.list = l.filter (fun x => decide (x ∉ gone)) := by
    rintro gone os u w w' hr hc rfl rfl
    exact ⟨u.list, (uiRun_inv hr).1, (uiRun_inv hr).2.1, hc, (List.filter_eq_self.2 (fun _ _ => rfl)).symm⟩
  have started : ∀ {w w' : World} {u : Ui} {o : UiObs}, Ui.start C dir w = (.ok (u, o), w') → u.configText = showList u.list ∧ ∃ l, o = .started l := by
    intro w w' u o h
    obtain ⟨l, hl, _⟩ := (start_spec C dir w).2.2 (u, o) (by rw [h])
    cases hl
    exact ⟨rfl, _, rfl⟩
  induction h generalizing gone with
  | start h =>
    obtain ⟨h1, l, rfl⟩ := started h
    obtain ⟨h2, h3⟩ := Prod.mk.inj (Option.some.inj ht)
    exact now (.start h) h1 h2 h3.symm
  | restart hr hf h =>
    obtain ⟨h1, l, rfl⟩ := started h
    rw [List.reverse_append] at ht
    obtain ⟨h2, h3⟩ := Prod.mk.inj (Option.some.inj ht)
    exact now (.restart hr hf h) h1 (by rw [List.reverse_append]; exact h2) h3.symm
  | crash a hr hf hc hf' h =>
    obtain ⟨h1, l, rfl⟩ := started h
    rw [List.reverse_append] at ht
    obtain ⟨h2, h3⟩ := Prod.mk.inj (Option.some.inj ht)
    exact now (.crash a hr hf hc hf' h) h1 (by rw [List.reverse_append]; exact h2) h3.symm
  | act a hr hfile h ih =>
    rename_i w1 w2 w3 os u u' o
    have hrun : UiRun C A hash T dir _ (os ++ [o]) u' w3 := .act a hr hfile h
    have hs := ((act_spec C A hash T dir u a w2).2.1 (u', o) (by rw [h])).1
    simp only at hs
    have hrev : (os ++ [o]).reverse = o :: os.reverse := by rw [List.reverse_append]; rfl
    rw [hrev] at ht
    cases o with
    | started l => exact hs.elim
    | added c =>
      obtain ⟨h2, h3⟩ := Prod.mk.inj (Option.some.inj ht)
      obtain ⟨_, rfl⟩ := hs
      exact now hrun rfl (by rw [hrev]; exact h2) h3.symm
    | replaced l =>
      obtain ⟨h2, h3⟩ := Prod.mk.inj (Option.some.inj ht)
      obtain ⟨_, rfl⟩ := hs
      exact now hrun rfl (by rw [hrev]; exact h2) h3.symm
    | shown =>
      obtain ⟨h2, h3⟩ := Prod.mk.inj (Option.some.inj ht)
      cases hs
      exact now hrun rfl (by rw [hrev]; exact h2) h3.symm
    | executed c ok =>
      cases hs
      exact ih ht
    | edited => cases ht
    | deleted c =>
      cases hs
      simp only [textShown] at ht
      cases h1 : textShown os.reverse with
      | none => simp [h1] at ht
      | some p =>
        obtain ⟨o1, g1⟩ := p
        rw [h1] at ht
        obtain ⟨rfl, rfl⟩ := Prod.mk.inj (Option.some.inj ht)
        obtain ⟨l, hg, hc, htext, hl⟩ := ih h1
        refine ⟨l, hg, hc, htext, ?_⟩
        show u.list.filter _ = _
        rw [hl, List.filter_filter]
        congr 1
        funext x
        simp only [List.mem_cons, not_or]
        by_cases h1 : x = c <;> by_cases h2 : x ∈ g1 <;> simp [h1, h2]

/-- **C61, exactly.** The user has not edited the text since the program set it (`os0`: what had happened until then; `gone`: the commands deleted since), and no field in it has white space. Pressing
save gives the list of that time again: it is the list as it is now if and only if none of the commands deleted since was in it. -/
theorem C61_unchanged_iff (C : ListCodec) (A : Aead) (hash : List Char → U64) (T : TextCodec) (dir : Path) (w w1 w2 w3 : World) (os os0 : List UiObs) (gone : List CommandData) (u u' : Ui) (o : UiObs)
    (h : UiRun C A hash T dir w os u w1) (ht : textShown os.reverse = some (os0, gone)) (hp : ∀ c, 0 < copies c os0 → PlainCmd c) (hs : u.act C A hash T dir .save w2 = (.ok (u', o), w3)) :
    (∀ x, u'.list.count x = copies x os0) ∧ (u'.list = u.list ↔ ∀ c ∈ gone, copies c os0 = 0) := by
  obtain ⟨l, hg, hc, htext, hl⟩ := configText_shown h ht
  have hl' := ((act_spec C A hash T dir u .save w2).2.1 (u', o) (by rw [hs])).2
  simp only [listAfter] at hl'
  have hplain : ∀ c ∈ l, PlainCmd c := fun c hm => hp c (by rw [← hc]; exact List.count_pos_iff.2 hm)
  rw [htext, C49_list_round_trip _ (fun c hm => ⟨hplain c hm, hg.2 c hm⟩), sortCmds_of_sorted hg.1] at hl'
  rw [hl', hl]
  refine ⟨hc, ?_, ?_⟩
  · intro he c hm
    rw [← hc, List.count_eq_zero]
    intro hcl
    rw [he, List.mem_filter] at hcl
    exact absurd hm (by simpa using hcl.2)
  · intro hz
    symm
    rw [List.filter_eq_self]
    intro c hm
    have : c ∉ gone := fun hgone => by
      have := hz c hgone
      rw [← hc] at this
      exact List.count_eq_zero.1 this hm
    simpa using this

/-- Both directions occur: one of the two commands in the text is deleted; and a command that is not in the text is deleted. -/
example : ((exSession [exAdd1, exAdd2, .delete exUi1] (exUiWorld [])).any (fun r => (textShown r.2.1.reverse).any (fun p => decide (p.2 = [exUi1]) && decide (copies exUi1 p.1 = 1)))) = true := by
  decide +kernel

example : ((exSession [exAdd2, .delete exUi1] (exUiWorld [])).any (fun r => (textShown r.2.1.reverse).any (fun p => decide (p.2 = [exUi1]) && decide (copies exUi1 p.1 = 0)))) = true := by
  decide +kernel

end Ruroco
