import Verif.Lemmas.UiExec
import Verif.Props.ClientHistory
import Verif.Lemmas.ClientOk
import Verif.Lemmas.UiToy
import Verif.Spec.Terms.Ui

/-!
# The graphical client

C49 text round trip, C50 the list of saved commands, C51 the status colours, C60 the temporary key file, C61 saving without editing, C62 a list that can not be loaded.
-/

namespace Ruroco

open Spec

/-! ## C49 -/

/-- **C49**: the text of a command without white space in its fields reads back as the same command. -/
theorem C49_round_trip (d : CommandData) (h : PlainCmd d) : SameFields (commandToData (dataToCommand d)) d ∧ Labelled (commandToData (dataToCommand d)) := by
  rw [command_round_trip h]
  exact ⟨addCommandName_fields d, addCommandName_labelled d⟩

/-- **C49**: two such commands with the same text have the same fields. -/
theorem C49_text_injective (a b : CommandData) (ha : PlainCmd a) (hb : PlainCmd b) (h : dataToCommand a = dataToCommand b) : SameFields a b := by
  have h2 : addCommandName a = addCommandName b := by
    rw [← command_round_trip ha, ← command_round_trip hb, h]
  have e1 := addCommandName_fields a
  have e2 := addCommandName_fields b
  rw [h2] at e1
  exact ⟨e1.1.symm.trans e2.1, e1.2.1.symm.trans e2.2.1, e1.2.2.1.symm.trans e2.2.2.1, e1.2.2.2.1.symm.trans e2.2.2.2.1, e1.2.2.2.2.1.symm.trans e2.2.2.2.2.1,
    e1.2.2.2.2.2.symm.trans e2.2.2.2.2.2⟩

/-- **C49**: the text shown for a list reads back as that list. -/
theorem C49_list_round_trip (l : List CommandData) (h : ∀ d ∈ l, PlainCmd d ∧ Labelled d) : parseConfig (showList l) = l := by
  rw [parseConfig_showList l (fun d hd => (h d hd).1)]
  conv => rhs; rw [← List.map_id l]
  exact List.map_congr_left (fun d hd => addCommandName_of_labelled (h d hd).2)

def exUiCmd : CommandData := addCommandName ⟨"host:80".toList, "open".toList, true, "10.0.0.1".toList, false, true, []⟩
def exUiCmd2 : CommandData := addCommandName ⟨"--ip".toList, "--address".toList, false, [], true, false, []⟩

example : (∀ d ∈ [exUiCmd, exUiCmd2], PlainCmd d ∧ Labelled d) ∧ dataToCommand exUiCmd = "send --address host:80 --command open --ip 10.0.0.1 --ipv6 --permissive".toList := by
  refine ⟨?_, by decide +kernel⟩
  intro d hd
  simp only [List.mem_cons, List.not_mem_nil, or_false] at hd
  rcases hd with rfl | rfl
  · exact ⟨⟨noSpace_lit (by decide +kernel), noSpace_lit (by decide +kernel), noSpace_lit (by decide +kernel)⟩, by unfold Labelled; decide +kernel⟩
  · exact ⟨⟨noSpace_lit (by decide +kernel), noSpace_lit (by decide +kernel), noSpace_lit (by decide +kernel)⟩, by unfold Labelled; decide +kernel⟩

/-- The restriction is needed: the form does not remove blanks from the address, and the text loses what follows them. -/
theorem C49_space_is_lost : ∃ d : CommandData, ¬ SameFields (commandToData (dataToCommand d)) d :=
  ⟨⟨"host:80 ".toList, "open".toList, false, [], false, false, []⟩, by decide +kernel⟩

/-! ## One action -/

/-- What one action does to the application, by what was observed. -/
def ObsStep (u u' : Ui) : UiObs → Prop
  | .started _ => False
  | .added c => Labelled c ∧ u' = { u with list := sortCmds (u.list ++ [c]), configText := showList (sortCmds (u.list ++ [c])) }
  | .deleted c => u' = { u.setStatus c none with list := u.list.filter (fun x => decide (x ≠ c)) }
  | .executed c ok => u' = u.setStatus c (some ok)
  | .edited => ∃ t, u' = { u with configText := t }
  | .replaced l => l = parseConfig u.configText ∧ u' = { u with list := sortCmds l, configText := showList (sortCmds l) }
  | .shown => u' = { u with configText := showList u.list }

theorem listPath_not_counter (dir : Path) : ¬ CounterFiles (counterPath dir) (listPath dir) := by
  unfold listPath counterPath
  rintro (h | ⟨n, h⟩)
  · have := List.append_cancel_left h
    revert this
    decide
  · unfold tmpPath at h
    rw [List.append_assoc] at h
    have := List.append_cancel_left h
    revert this
    rw [show "/commands_list.toml".toList = '/' :: 'c' :: 'o' :: 'm' :: "mands_list.toml".toList from rfl, show "/counter".toList = '/' :: 'c' :: 'o' :: 'u' :: "nter".toList from rfl]
    simp

theorem listPath_not_temp (dir d : Path) : listPath dir ≠ tempKeyPath dir d := by
  unfold listPath tempKeyPath
  intro h
  rw [List.append_assoc] at h
  have := List.append_cancel_left h
  revert this
  rw [show "/commands_list.toml".toList = '/' :: 'c' :: "ommands_list.toml".toList from rfl, show "/.tmp".toList = '/' :: '.' :: "tmp".toList from rfl]
  simp

theorem exec_keeps_list (A : Aead) (hash : List Char → U64) (T : TextCodec) (dir : Path) (env : ExecEnv) (key : List Char) (c : CommandData) (w : World) :
    (execWithKey A hash T dir env key c w).2.fs (listPath dir) = w.fs (listPath dir) := by
  have h := execWithKey_spec A hash T dir env key c w
  unfold wp at h
  generalize (execWithKey A hash T dir env key c w).1 = o at h
  generalize (execWithKey A hash T dir env key c w).2 = w' at h
  cases h with
  | early _ _ ht => exact ht.fs _ (fun hh => hh)
  | used d hd _ _ _ h _ =>
    refine h.touch.fs _ ?_
    rintro (hh | hh)
    · exact listPath_not_temp dir d hh
    · exact listPath_not_counter dir hh

theorem act_spec (C : ListCodec) (A : Aead) (hash : List Char → U64) (T : TextCodec) (dir : Path) (u : Ui) (a : UiAction) (w : World) :
    wp (u.act C A hash T dir a) w (fun o w' => (∀ e, o ≠ .err e) ∧ (∀ r, o = .ok r → ObsStep u r.1 r.2 ∧ r.1.list = listAfter u a) ∧
      (w'.fs (listPath dir) = w.fs (listPath dir) ∨ Stored C w' (listPath dir) (listAfter u a))) := by
  cases a with
  | add address command ip permissive ipv4 ipv6 =>
    unfold Ui.act addCommand
    simp only
    rw [wp_bind, wp_bind]
    refine wp_mono (saveCommands_spec C (listPath dir) _ w) ?_
    rintro o w' ⟨hne, _, hs⟩
    cases o with
    | err e => exact absurd rfl (hne e)
    | crash => exact ⟨nofun, nofun, hs⟩
    | ok _ =>
      refine ⟨nofun, ?_, hs⟩
      rintro r hr
      cases hr
      exact ⟨⟨addCommandName_labelled _, rfl⟩, rfl⟩
  | delete c =>
    unfold Ui.act removeCommand
    simp only
    rw [wp_bind, wp_bind]
    refine wp_mono (saveCommands_spec C (listPath dir) _ w) ?_
    rintro o w' ⟨hne, _, hs⟩
    cases o with
    | err e => exact absurd rfl (hne e)
    | crash => exact ⟨nofun, nofun, hs⟩
    | ok _ =>
      refine ⟨nofun, ?_, hs⟩
      rintro r hr
      cases hr
      exact ⟨rfl, rfl⟩
  | save =>
    unfold Ui.act setCommands
    simp only
    rw [wp_bind, wp_bind]
    refine wp_mono (saveCommands_spec C (listPath dir) _ w) ?_
    rintro o w' ⟨hne, _, hs⟩
    cases o with
    | err e => exact absurd rfl (hne e)
    | crash => exact ⟨nofun, nofun, hs⟩
    | ok _ =>
      refine ⟨nofun, ?_, hs⟩
      rintro r hr
      cases hr
      exact ⟨⟨rfl, rfl⟩, rfl⟩
  | edit t => exact ⟨nofun, by rintro r hr; cases hr; exact ⟨⟨t, rfl⟩, rfl⟩, Or.inl rfl⟩
  | reset => exact ⟨nofun, by rintro r hr; cases hr; exact ⟨rfl, rfl⟩, Or.inl rfl⟩
  | exec env key c =>
    have hk := exec_keeps_list A hash T dir env key c w
    unfold Ui.act
    simp only
    rw [wp_bind, wp_attempt]
    have hx : wp (execWithKey A hash T dir env key c) w (fun _ w' => w'.fs (listPath dir) = w.fs (listPath dir)) := hk
    refine wp_mono hx ?_
    intro o w' hw
    cases o with
    | crash => exact ⟨nofun, nofun, Or.inl hw⟩
    | ok _ => exact ⟨nofun, by rintro r hr; cases hr; exact ⟨rfl, rfl⟩, Or.inl hw⟩
    | err e => exact ⟨nofun, by rintro r hr; cases hr; exact ⟨rfl, rfl⟩, Or.inl hw⟩

theorem start_spec (C : ListCodec) (dir : Path) (w : World) : wp (Ui.start C dir) w (fun o w' => (∀ e, o ≠ .err e) ∧ w'.fs = w.fs ∧
    ∀ r, o = .ok r → ∃ l, r = (⟨sortCmds (l.map addCommandName), showList (sortCmds (l.map addCommandName)), fun _ => none⟩, .started (sortCmds (l.map addCommandName))) ∧
      ((∀ k, w.oracle.head? ≠ some (.err k)) → ∀ f, w.fs (listPath dir) = some f → ∀ m, C.dec f.data = some m → l = m)) := by
  unfold Ui.start loadCommands
  rw [wp_bind, wp_bind, wp_attempt]
  refine wp_mono (readFile_spec (listPath dir) w) ?_
  rintro o w' ⟨hfs, _, hres⟩
  cases o with
  | crash => exact ⟨nofun, hfs, nofun⟩
  | err e =>
    refine ⟨nofun, hfs, ?_⟩
    rintro r hr
    cases hr
    refine ⟨[], rfl, ?_⟩
    intro hno f hf m _
    rcases hres with ⟨_, _, h⟩ | ⟨_, h⟩ | ⟨_, k, h⟩ | h
    · cases h
    · rw [h] at hf; cases hf
    · exact absurd h (hno k)
    · cases h
  | ok b =>
    refine ⟨nofun, hfs, ?_⟩
    rintro r hr
    cases hr
    refine ⟨_, rfl, ?_⟩
    intro _ f hf m hm
    have hb : b = f.data := by
      rcases hres with ⟨g, hg, h⟩ | ⟨h, _⟩ | ⟨h, _⟩ | h
      · rw [hf] at hg
        cases hg
        cases h
        rfl
      · cases h
      · cases h
      · cases h
    subst hb
    simp only [hm]

/-! ## C50 -/

/-- Sorted, and every display name is the one of its fields. -/
def GoodList (l : List CommandData) : Prop := SortedCmds l ∧ ∀ c ∈ l, Labelled c

theorem goodList_sorted {l : List CommandData} (h : ∀ c ∈ l, Labelled c) : GoodList (sortCmds l) :=
  ⟨sortCmds_sorted l, fun c hc => h c ((sortCmds_perm l).mem_iff.1 hc)⟩

theorem commandToData_labelled (t : List Char) : Labelled (commandToData t) := addCommandName_labelled _

theorem goodList_step {u u' : Ui} {o : UiObs} (h : ObsStep u u' o) (hg : GoodList u.list) : GoodList u'.list := by
  cases o with
  | started l => exact h.elim
  | added c =>
    obtain ⟨hc, rfl⟩ := h
    refine goodList_sorted ?_
    intro x hx
    rcases List.mem_append.1 hx with hx | hx
    · exact hg.2 x hx
    · simp only [List.mem_cons, List.not_mem_nil, or_false] at hx
      subst hx
      exact hc
  | deleted c =>
    cases h
    exact ⟨hg.1.sublist List.filter_sublist, fun x hx => hg.2 x ((List.mem_filter.1 hx).1)⟩
  | executed c ok =>
    cases h
    exact hg
  | edited =>
    obtain ⟨t, rfl⟩ := h
    exact hg
  | replaced l =>
    obtain ⟨rfl, rfl⟩ := h
    refine goodList_sorted ?_
    intro x hx
    unfold parseConfig at hx
    obtain ⟨t, _, rfl⟩ := List.mem_map.1 hx
    exact commandToData_labelled t
  | shown =>
    cases h
    exact hg

theorem copies_step {u u' : Ui} {o : UiObs} (h : ObsStep u u' o) (os : List UiObs) (x : CommandData) (hc : u.list.count x = copies x os) : u'.list.count x = copies x (o :: os) := by
  cases o with
  | started l => exact h.elim
  | added c =>
    obtain ⟨_, rfl⟩ := h
    show (sortCmds (u.list ++ [c])).count x = copies x os + _
    rw [(sortCmds_perm _).count_eq, List.count_append, hc, List.count_singleton]
    simp only [beq_iff_eq]
  | deleted c =>
    cases h
    show (u.list.filter (fun y => decide (y ≠ c))).count x = if c = x then 0 else copies x os
    split
    · rename_i hcx
      subst hcx
      refine List.count_eq_zero.2 ?_
      intro hm
      have := (List.mem_filter.1 hm).2
      simp at this
    · rename_i hcx
      rw [List.count_filter (by simpa using fun e => hcx e.symm), hc]
  | executed c ok =>
    cases h
    exact hc
  | edited =>
    obtain ⟨t, rfl⟩ := h
    exact hc
  | replaced l =>
    obtain ⟨_, rfl⟩ := h
    exact (sortCmds_perm l).count_eq x
  | shown =>
    cases h
    exact hc

/-- What holds in every reachable state. -/
theorem uiRun_inv {C : ListCodec} {A : Aead} {hash : List Char → U64} {T : TextCodec} {dir : Path} {w w' : World} {os : List UiObs} {u : Ui}
    (h : UiRun C A hash T dir w os u w') : GoodList u.list ∧ (∀ x, u.list.count x = copies x os.reverse) ∧ (∀ x, u.status (StatusKey.of x) = lastResult x os.reverse) := by
  have started : ∀ {w w' : World} {os : List UiObs} {u : Ui} {o : UiObs}, Ui.start C dir w = (.ok (u, o), w') →
      GoodList u.list ∧ (∀ x, u.list.count x = copies x (os ++ [o]).reverse) ∧ (∀ x, u.status (StatusKey.of x) = lastResult x (os ++ [o]).reverse) := by
    intro w w' os u o h
    have hs := (start_spec C dir w).2.2 (u, o) (by rw [h])
    obtain ⟨l, hl, _⟩ := hs
    cases hl
    rw [List.reverse_append]
    refine ⟨goodList_sorted ?_, fun _ => rfl, fun _ => rfl⟩
    intro x hx
    obtain ⟨y, _, rfl⟩ := List.mem_map.1 hx
    exact addCommandName_labelled y
  induction h with
  | start h => exact started (os := []) h
  | restart _ _ h => exact started h
  | crash a _ _ _ _ h => exact started h
  | act a hr hfile h ih =>
    rename_i w1 w2 w3 os u u' o
    obtain ⟨h1, h2, h3⟩ := ih
    have hs := ((act_spec C A hash T dir u a w2).2.1 (u', o) (by rw [h])).1
    simp only at hs
    rw [List.reverse_append]
    refine ⟨goodList_step hs h1, fun x => copies_step hs _ x (h2 x), fun x => ?_⟩
    show u'.status (StatusKey.of x) = lastResult x (o :: os.reverse)
    have hkey : ∀ c : CommandData, StatusKey.of x = StatusKey.of c ↔ SameFields c x := by
      intro c
      constructor
      · intro h
        simp only [StatusKey.of, StatusKey.mk.injEq] at h
        obtain ⟨a1, a2, a3, a4, a5, a6⟩ := h
        exact ⟨a2.symm, a1.symm, a6.symm, a3.symm, a4.symm, a5.symm⟩
      · rintro ⟨a1, a2, a3, a4, a5, a6⟩
        simp only [StatusKey.of, a1, a2, a3, a4, a5, a6]
    cases o with
    | started l => exact hs.elim
    | added c =>
      obtain ⟨_, rfl⟩ := hs
      exact h3 x
    | deleted c =>
      cases hs
      show (if StatusKey.of x = StatusKey.of c then none else u.status (StatusKey.of x)) = if SameFields c x then none else lastResult x os.reverse
      rw [h3 x]
      by_cases hc : SameFields c x
      · rw [if_pos hc, if_pos ((hkey c).2 hc)]
      · rw [if_neg hc, if_neg (fun hh => hc ((hkey c).1 hh))]
    | executed c ok =>
      cases hs
      show (if StatusKey.of x = StatusKey.of c then some ok else u.status (StatusKey.of x)) = if SameFields c x then some ok else lastResult x os.reverse
      rw [h3 x]
      by_cases hc : SameFields c x
      · rw [if_pos hc, if_pos ((hkey c).2 hc)]
      · rw [if_neg hc, if_neg (fun hh => hc ((hkey c).1 hh))]
    | edited =>
      obtain ⟨t, rfl⟩ := hs
      exact h3 x
    | replaced l =>
      obtain ⟨_, rfl⟩ := hs
      exact h3 x
    | shown =>
      cases hs
      exact h3 x

/-- **C50**: after any sequence of actions, restarts and crashes the list is sorted, and contains each command as often as the additions, deletions and replacements so far say. -/
theorem C50_sorted_multiset (C : ListCodec) (A : Aead) (hash : List Char → U64) (T : TextCodec) (dir : Path) (w w' : World) (os : List UiObs) (u : Ui)
    (h : UiRun C A hash T dir w os u w') : SortedCmds u.list ∧ ∀ x, u.list.count x = copies x os.reverse :=
  ⟨(uiRun_inv h).1.1, (uiRun_inv h).2.1⟩

/-- **C50**: sorting keeps the order of commands with the same command and address, so entries never swap places for no reason. -/
theorem C50_stable (k a : List Char) (l : List CommandData) :
    (sortCmds l).filter (fun c => decide (c.command = k ∧ c.address = a)) = l.filter (fun c => decide (c.command = k ∧ c.address = a)) := sortCmds_stable k a l

theorem load_stored {C : ListCodec} (hC : C.Correct) {dir : Path} {l : List CommandData} (hg : GoodList l) {w w' : World} {u : Ui} {o : UiObs} (hs : Stored C w (listPath dir) l)
    (hread : ∀ k, w.oracle.head? ≠ some (.err k)) (h : Ui.start C dir w = (.ok (u, o), w')) : u.list = l := by
  obtain ⟨b, f, hb, hf, hd⟩ := hs
  obtain ⟨b', hb', hdec⟩ := hC l
  rw [hb] at hb'
  cases hb'
  obtain ⟨m, hm, hml⟩ := (start_spec C dir w).2.2 (u, o) (by rw [h])
  have := hml hread f hf _ (by rw [hd]; exact hdec)
  subst this
  cases hm
  show sortCmds ((l.map _).map addCommandName) = l
  rw [List.map_map]
  have hid : l.map (addCommandName ∘ fun d => { d with name := [] }) = l := by
    conv => rhs; rw [← List.map_id l]
    refine List.map_congr_left (fun d hd => ?_)
    show addCommandName { d with name := [] } = d
    have := addCommandName_of_labelled (hg.2 d hd)
    exact this
  rw [hid]
  exact sortCmds_of_sorted hg.1

theorem goodList_after {u : Ui} (a : UiAction) (hg : GoodList u.list) : GoodList (listAfter u a) := by
  cases a with
  | add address command ip permissive ipv4 ipv6 => exact goodList_step (u := u) (o := .added _) ⟨addCommandName_labelled _, rfl⟩ hg
  | delete c => exact goodList_step (u := u) (o := .deleted c) rfl hg
  | save => exact goodList_step (u := u) (o := .replaced _) ⟨rfl, rfl⟩ hg
  | exec _ _ _ => exact hg
  | edit _ => exact hg
  | reset => exact hg

/-- **C50**, restarting: if the file holds the current list, then after one more action, whether it is carried out, fails to save or is cut short by a crash, the next start loads the
list before or the list after the action, provided reading the file does not fail. -/
theorem C50_restart (C : ListCodec) (hC : C.Correct) (A : Aead) (hash : List Char → U64) (T : TextCodec) (dir : Path) (w0 w1 w1' w2 w3 w4 : World) (os : List UiObs) (u u' : Ui) (a : UiAction)
    (out : Out (Ui × UiObs)) (o : UiObs) (hr : UiRun C A hash T dir w0 os u w1) (hsync : Stored C w1' (listPath dir) u.list) (hact : u.act C A hash T dir a w1' = (out, w2))
    (hfile : w3.fs (listPath dir) = w2.fs (listPath dir)) (hread : ∀ k, w3.oracle.head? ≠ some (.err k)) (hstart : Ui.start C dir w3 = (.ok (u', o), w4)) :
    u'.list = u.list ∨ u'.list = listAfter u a := by
  have hg := (uiRun_inv hr).1
  have hd := (act_spec C A hash T dir u a w1').2.2
  rw [hact] at hd
  simp only at hd
  rcases hd with hd | hd
  · left
    refine load_stored hC hg ?_ hread hstart
    obtain ⟨b, f, h1, h2, h3⟩ := hsync
    exact ⟨b, f, h1, by rw [hfile, hd]; exact h2, h3⟩
  · right
    refine load_stored hC (goodList_after a hg) ?_ hread hstart
    obtain ⟨b, f, h1, h2, h3⟩ := hd
    exact ⟨b, f, h1, by rw [hfile]; exact h2, h3⟩

theorem saveCommands_ok (C : ListCodec) (hC : C.Correct) (path : Path) (l : List CommandData) (w : World) (hok : AllOk w) (t : U128) (ts : List (Option U128))
    (hclock : w.clock = some t :: ts) : wp (saveCommands C path l) w (fun o w' => o = .ok () ∧ Stored C w' path l) := by
  obtain ⟨b, hb, _⟩ := hC l
  unfold saveCommands
  rw [hb]
  simp only
  rw [wp_bind, wp_attempt]
  refine wp_mono (wp_and (writeAtomicWithMode_spec path b none w : wp (writeAtomic path b) w _) (writeAtomicWithMode_ok path b none w hok t ts hclock)) ?_
  rintro o w' ⟨h, h2⟩
  have ho : o = .ok () := h2.1
  subst ho
  refine ⟨rfl, ?_⟩
  rcases h.result with h1 | ⟨⟨f, hf, hd, _⟩, _⟩
  · exact absurd rfl h1.2.2
  · exact ⟨b, f, hb, hf, hd⟩

/-- **C50**, saving: when nothing fails, adding, deleting and replacing leave the file with the new list, and the next start shows exactly that list. -/
theorem C50_reload (C : ListCodec) (hC : C.Correct) (A : Aead) (hash : List Char → U64) (T : TextCodec) (dir : Path) (w0 w1 w1' w2 w3 w4 : World) (os : List UiObs) (u u' u'' : Ui)
    (a : UiAction) (ha : (∃ x1 x2 x3 x4 x5 x6, a = .add x1 x2 x3 x4 x5 x6) ∨ (∃ c, a = .delete c) ∨ a = .save) (o o' : UiObs) (hr : UiRun C A hash T dir w0 os u w1)
    (hok : ∀ c ∈ w1'.oracle, c = .ok) (t : U128) (ts : List (Option U128)) (hclock : w1'.clock = some t :: ts) (hact : u.act C A hash T dir a w1' = (.ok (u', o), w2))
    (hfile : w3.fs (listPath dir) = w2.fs (listPath dir)) (hread : ∀ k, w3.oracle.head? ≠ some (.err k)) (hstart : Ui.start C dir w3 = (.ok (u'', o'), w4)) :
    u''.list = u'.list := by
  have hg := (uiRun_inv hr).1
  have hl : u'.list = listAfter u a := ((act_spec C A hash T dir u a w1').2.1 (u', o) (by rw [hact])).2
  have hst : Stored C w2 (listPath dir) (listAfter u a) := by
    have key : wp (u.act C A hash T dir a) w1' (fun _ w' => Stored C w' (listPath dir) (listAfter u a)) := by
      have hsave := fun l => saveCommands_ok C hC (listPath dir) l w1' hok t ts hclock
      rcases ha with ⟨x1, x2, x3, x4, x5, x6, rfl⟩ | ⟨c, rfl⟩ | rfl
      · unfold Ui.act addCommand
        simp only
        rw [wp_bind, wp_bind]
        refine wp_mono (hsave _) ?_
        rintro o w' ⟨rfl, hs⟩
        exact hs
      · unfold Ui.act removeCommand
        simp only
        rw [wp_bind, wp_bind]
        refine wp_mono (hsave _) ?_
        rintro o w' ⟨rfl, hs⟩
        exact hs
      · unfold Ui.act setCommands
        simp only
        rw [wp_bind, wp_bind]
        refine wp_mono (hsave _) ?_
        rintro o w' ⟨rfl, hs⟩
        exact hs
    have := key
    unfold wp at this
    rw [hact] at this
    exact this
  rw [hl]
  refine load_stored hC (goodList_after a hg) ?_ hread hstart
  obtain ⟨b, f, h1, h2, h3⟩ := hst
  exact ⟨b, f, h1, by rw [hfile]; exact h2, h3⟩

/-! ### Playing actions -/

/-- The given actions one after the other in one world; `none` if one is not carried out. -/
def uiPlay (C : ListCodec) (A : Aead) (hash : List Char → U64) (T : TextCodec) (dir : Path) : List UiAction → Ui → World → Option (Ui × List UiObs × World)
  | [], u, w => some (u, [], w)
  | a :: as, u, w =>
    match u.act C A hash T dir a w with
    | (.ok (u', o), w') => (uiPlay C A hash T dir as u' w').map (fun r => (r.1, o :: r.2.1, r.2.2))
    | _ => none

theorem uiPlay_run {C : ListCodec} {A : Aead} {hash : List Char → U64} {T : TextCodec} {dir : Path} {w0 : World} {as : List UiAction} {os : List UiObs} {u : Ui} {w : World}
    (hr : UiRun C A hash T dir w0 os u w) {r : Ui × List UiObs × World} (h : uiPlay C A hash T dir as u w = some r) : UiRun C A hash T dir w0 (os ++ r.2.1) r.1 r.2.2 := by
  induction as generalizing os u w r with
  | nil =>
    cases h
    simpa using hr
  | cons a as ih =>
    unfold uiPlay at h
    split at h
    · rename_i u' o w' hact
      obtain ⟨r', hr', rfl⟩ := Option.map_eq_some_iff.1 h
      have := ih (UiRun.act a hr rfl hact) hr'
      simpa using this
    · cases h

/-- Start, then the actions. -/
def uiSession (C : ListCodec) (A : Aead) (hash : List Char → U64) (T : TextCodec) (dir : Path) (as : List UiAction) (w : World) : Option (Ui × List UiObs × World) :=
  match Ui.start C dir w with
  | (.ok (u, o), w') => (uiPlay C A hash T dir as u w').map (fun r => (r.1, o :: r.2.1, r.2.2))
  | _ => none

theorem uiSession_run {C : ListCodec} {A : Aead} {hash : List Char → U64} {T : TextCodec} {dir : Path} {as : List UiAction} {w : World} {r : Ui × List UiObs × World}
    (h : uiSession C A hash T dir as w = some r) : UiRun C A hash T dir w r.2.1 r.1 r.2.2 := by
  unfold uiSession at h
  split at h
  · rename_i u o w' hs
    obtain ⟨r', hr', rfl⟩ := Option.map_eq_some_iff.1 h
    exact uiPlay_run (UiRun.start hs) hr'
  · cases h

/-- UTF-8 for the ASCII texts of the examples. -/
def toyTextCodec : TextCodec := ⟨fun t => t.map (fun c => BitVec.ofNat 8 c.toNat), fun b => some (b.map (fun x => Char.ofNat x.toNat))⟩

def exUiWorld (oracle : List Choice) : World :=
  { fs := fun _ => none, pend := fun _ => [], clock := List.replicate 9 (some 1763290000000000000), oracle, umask := 0o022, cur := [], log := [] }

abbrev exSession (as : List UiAction) (w : World) : Option (Ui × List UiObs × World) := uiSession toyListCodec toyAead (fun n => BitVec.ofNat 64 n.length) toyTextCodec "/c".toList as w

def exExecEnv : ExecEnv := ⟨true, ["Ab12".toList], fun _ => some [⟨.v4 0x0a000002, 80⟩], fun _ => some (List.replicate 12 7)⟩

def exAdd1 : UiAction := .add "h:80".toList "o p".toList [] false true false
def exAdd2 : UiAction := .add "h:80".toList "a".toList [] false true false
def exUi1 : CommandData := addCommandName ⟨"h:80".toList, "op".toList, false, [], true, false, []⟩
def exUi2 : CommandData := addCommandName ⟨"h:80".toList, "a".toList, false, [], true, false, []⟩

/-- Two additions and two executions, after which the list is sorted and reloaded as it is. -/
example : ((exSession [exAdd1, exAdd2] (exUiWorld [])).map (fun r => (r.1.list, (exSession [] { r.2.2 with oracle := [] }).map (fun r => r.1.list)))) =
    some ([exUi2, exUi1], some [exUi2, exUi1]) := by decide +kernel

example : toyListCodec.Correct := toyListCodec_correct

/-- Deleting removes all equal copies. -/
example : ((exSession [exAdd1, exAdd2, exAdd1, .delete exUi1] (exUiWorld [])).map (fun r => r.1.list)) = some [exUi2] := by decide +kernel

/-! ## C51 -/

/-- **C51**, proved part: after any sequence of actions, restarts and crashes a command has the colour of the last execution of a command with the same fields since the last start and the last
use of its delete button. Missing: a command that is removed by editing the text keeps its colour, see `C51_removed_by_text_keeps_color`. -/
theorem C51_color_partial (C : ListCodec) (A : Aead) (hash : List Char → U64) (T : TextCodec) (dir : Path) (w w' : World) (os : List UiObs) (u : Ui)
    (h : UiRun C A hash T dir w os u w') (x : CommandData) : u.colorFor x = resultColor (lastResult x os.reverse) := by
  unfold Ui.colorFor
  rw [(uiRun_inv h).2.2 x]
  cases lastResult x os.reverse with
  | none => rfl
  | some b => cases b <;> rfl

example : (exSession [exAdd1, exAdd2, .exec exExecEnv (' ' :: exClientKey) exUi1, .exec exExecEnv "junk".toList exUi2] (exUiWorld [])).map
    (fun r => (r.1.colorFor exUi1, r.1.colorFor exUi2, r.1.colorFor exUiCmd)) = some (.green, .red, .gray) := by decide +kernel

/-- **C51 is false** for commands removed by editing the text: the command is gone from the list, is added again, and shows the old result although it was never executed since. -/
theorem C51_removed_by_text_keeps_color : ∃ (C : ListCodec) (A : Aead) (hash : List Char → U64) (T : TextCodec) (dir : Path) (w w1 w2 : World) (os : List UiObs) (u1 u2 : Ui) (x : CommandData),
    UiRun C A hash T dir w os u1 w1 ∧ x ∉ u1.list ∧ UiRun C A hash T dir w (os ++ [.added x]) u2 w2 ∧ x ∈ u2.list ∧ u2.colorFor x = .green := by
  have h1 : ∃ r, exSession [exAdd1, .exec exExecEnv exClientKey exUi1, .edit [], .save] (exUiWorld []) = some r ∧ exUi1 ∉ r.1.list ∧
      ∃ r2, uiPlay toyListCodec toyAead (fun n => BitVec.ofNat 64 n.length) toyTextCodec "/c".toList [exAdd1] r.1 r.2.2 = some r2 ∧ r2.2.1 = [.added exUi1] ∧ exUi1 ∈ r2.1.list ∧
        r2.1.colorFor exUi1 = .green := by
    have : (exSession [exAdd1, .exec exExecEnv exClientKey exUi1, .edit [], .save] (exUiWorld [])).any (fun r => decide (exUi1 ∉ r.1.list) &&
        (uiPlay toyListCodec toyAead (fun n => BitVec.ofNat 64 n.length) toyTextCodec "/c".toList [exAdd1] r.1 r.2.2).any (fun r2 => decide (r2.2.1 = [.added exUi1]) && decide (exUi1 ∈ r2.1.list) &&
          decide (r2.1.colorFor exUi1 = .green))) = true := by decide +kernel
    simp only [Option.any_eq_true, Bool.and_eq_true, decide_eq_true_eq] at this
    obtain ⟨r, hr, hl, r2, hr2, ⟨a, b⟩, c⟩ := this
    exact ⟨r, hr, hl, r2, hr2, a, b, c⟩
  obtain ⟨r, hr, hl, r2, hr2, ha, hb, hc⟩ := h1
  have run1 := uiSession_run hr
  have run2 := uiPlay_run run1 hr2
  rw [ha] at run2
  exact ⟨_, _, _, _, _, _, _, _, _, _, _, exUi1, run1, hl, run2, hb, hc⟩

/-! ## C61 -/

theorem configText_current {C : ListCodec} {A : Aead} {hash : List Char → U64} {T : TextCodec} {dir : Path} {w w' : World} {os : List UiObs} {u : Ui}
    (h : UiRun C A hash T dir w os u w') (ht : untouchedText os.reverse = true) : u.configText = showList u.list := by
  have started : ∀ {w w' : World} {u : Ui} {o : UiObs}, Ui.start C dir w = (.ok (u, o), w') → u.configText = showList u.list := by
    intro w w' u o h
    obtain ⟨l, hl, _⟩ := (start_spec C dir w).2.2 (u, o) (by rw [h])
    cases hl
    rfl
  induction h with
  | start h => exact started h
  | restart _ _ h => exact started h
  | crash a _ _ _ _ h => exact started h
  | act a hr hfile h ih =>
    rename_i w1 w2 w3 os u u' o
    have hs := ((act_spec C A hash T dir u a w2).2.1 (u', o) (by rw [h])).1
    simp only at hs
    rw [List.reverse_append] at ht
    change untouchedText (o :: os.reverse) = true at ht
    cases o with
    | started l => exact hs.elim
    | added c =>
      obtain ⟨_, rfl⟩ := hs
      rfl
    | deleted c => cases ht
    | executed c ok =>
      cases hs
      exact ih ht
    | edited => cases ht
    | replaced l =>
      obtain ⟨_, rfl⟩ := hs
      rfl
    | shown =>
      cases hs
      rfl

/-- **C61**, proved part: pressing "save" on a text that was not edited leaves the list as it is, provided no command was deleted since the text was shown and no field contains white space.
Missing: after a deletion it is false, see `C61_deleted_command_returns`. -/
theorem C61_unedited_save_partial (C : ListCodec) (A : Aead) (hash : List Char → U64) (T : TextCodec) (dir : Path) (w w1 w2 w3 : World) (os : List UiObs) (u u' : Ui) (o : UiObs)
    (h : UiRun C A hash T dir w os u w1) (ht : untouchedText os.reverse = true) (hp : ∀ c ∈ u.list, PlainCmd c) (hs : u.act C A hash T dir .save w2 = (.ok (u', o), w3)) :
    u'.list = u.list := by
  have hg := (uiRun_inv h).1
  have := ((act_spec C A hash T dir u .save w2).2.1 (u', o) (by rw [hs])).2
  simp only [listAfter] at this
  rw [this, configText_current h ht, C49_list_round_trip _ (fun c hc => ⟨hp c hc, hg.2 c hc⟩), sortCmds_of_sorted hg.1]

example : (exSession [exAdd1, exAdd2, .exec exExecEnv exClientKey exUi1, .save] (exUiWorld [])).map (fun r => (r.1.list, untouchedText r.2.1.reverse)) = some ([exUi2, exUi1], true) := by
  decide +kernel

/-- **C61 is false** after a deletion: the text still shows the deleted command, and saving it without any edit brings the command back. -/
theorem C61_deleted_command_returns : ∃ (C : ListCodec) (A : Aead) (hash : List Char → U64) (T : TextCodec) (dir : Path) (w w1 w2 : World) (os : List UiObs) (u1 u2 : Ui) (x : CommandData)
    (o : UiObs), UiRun C A hash T dir w os u1 w1 ∧ UiObs.edited ∉ os ∧ x ∉ u1.list ∧ u1.act C A hash T dir .save w1 = (.ok (u2, o), w2) ∧ x ∈ u2.list := by
  have h1 : ∃ r, exSession [exAdd1, .delete exUi1] (exUiWorld []) = some r ∧ UiObs.edited ∉ r.2.1 ∧ exUi1 ∉ r.1.list ∧
      ∃ r2, uiPlay toyListCodec toyAead (fun n => BitVec.ofNat 64 n.length) toyTextCodec "/c".toList [.save] r.1 r.2.2 = some r2 ∧ exUi1 ∈ r2.1.list := by
    have : (exSession [exAdd1, .delete exUi1] (exUiWorld [])).any (fun r => decide (UiObs.edited ∉ r.2.1) && decide (exUi1 ∉ r.1.list) &&
        (uiPlay toyListCodec toyAead (fun n => BitVec.ofNat 64 n.length) toyTextCodec "/c".toList [.save] r.1 r.2.2).any (fun r2 => decide (exUi1 ∈ r2.1.list))) = true := by decide +kernel
    simp only [Option.any_eq_true, Bool.and_eq_true, decide_eq_true_eq] at this
    obtain ⟨r, hr, ⟨he, hl⟩, r2, hr2, a⟩ := this
    exact ⟨r, hr, he, hl, r2, hr2, a⟩
  obtain ⟨r, hr, he, hl, r2, hr2, ha⟩ := h1
  unfold uiPlay at hr2
  split at hr2
  · rename_i u' o w' hact
    cases hr2
    exact ⟨_, _, _, _, _, _, _, _, _, _, _, exUi1, o, uiSession_run hr, he, hl, hact, ha⟩
  · cases hr2

/-! ## C62 -/

/-- **C62**, proved part: starting changes no file, whether or not the list can be loaded, and no action changes the file of the list unless it changes the list.
Missing: the first change of the list replaces the file, see `C62_unread_list_is_lost`. -/
theorem C62_preserved_partial (C : ListCodec) (A : Aead) (hash : List Char → U64) (T : TextCodec) (dir : Path) :
    (∀ w, (Ui.start C dir w).2.fs = w.fs) ∧
    ∀ (u : Ui) (a : UiAction) (w : World), (∀ x1 x2 x3 x4 x5 x6, a ≠ .add x1 x2 x3 x4 x5 x6) → (∀ c, a ≠ .delete c) → a ≠ .save →
      (u.act C A hash T dir a w).2.fs (listPath dir) = w.fs (listPath dir) := by
  refine ⟨fun w => (start_spec C dir w).2.1, ?_⟩
  intro u a w h1 h2 h3
  cases a with
  | add x1 x2 x3 x4 x5 x6 => exact absurd rfl (h1 x1 x2 x3 x4 x5 x6)
  | delete c => exact absurd rfl (h2 c)
  | save => exact absurd rfl h3
  | edit t => rfl
  | reset => rfl
  | exec env key c =>
    have hx : wp (execWithKey A hash T dir env key c) w (fun _ w' => w'.fs (listPath dir) = w.fs (listPath dir)) := exec_keeps_list A hash T dir env key c w
    show wp (u.act C A hash T dir (.exec env key c)) w (fun _ w' => w'.fs (listPath dir) = w.fs (listPath dir))
    unfold Ui.act
    simp only
    rw [wp_bind, wp_attempt]
    refine wp_mono hx ?_
    intro o w' hw
    cases o <;> exact hw

example : (exSession [exAdd1, .exec exExecEnv exClientKey exUi1] (exUiWorld [])).isSome = true := by decide +kernel

/-- **C62 is false**: when reading the list fails once at start-up, the application starts with an empty list, and adding a command replaces all saved commands. -/
theorem C62_unread_list_is_lost : ∃ (C : ListCodec) (A : Aead) (hash : List Char → U64) (T : TextCodec) (dir : Path) (w w1 : World) (os : List UiObs) (u : Ui) (x y : CommandData),
    Stored C w (listPath dir) [x] ∧ UiRun C A hash T dir w os u w1 ∧ os = [.started [], .added y] ∧ Stored C w1 (listPath dir) [y] ∧ x ≠ y := by
  have h1 : ∃ r, exSession [exAdd2] { exUiWorld [.err 0] with fs := fun p => if p = listPath "/c".toList then some ⟨toyList [exUi1], 0o644, true, .creator⟩ else none } = some r ∧
      r.2.1 = [.started [], .added exUi2] ∧ content r.2.2 (listPath "/c".toList) = some (toyList [exUi2]) := by
    have : (exSession [exAdd2] { exUiWorld [.err 0] with fs := fun p => if p = listPath "/c".toList then some ⟨toyList [exUi1], 0o644, true, .creator⟩ else none }).any (fun r =>
        decide (r.2.1 = [.started [], .added exUi2]) && decide (content r.2.2 (listPath "/c".toList) = some (toyList [exUi2]))) = true := by decide +kernel
    simp only [Option.any_eq_true, Bool.and_eq_true, decide_eq_true_eq] at this
    obtain ⟨r, hr, a, b⟩ := this
    exact ⟨r, hr, a, b⟩
  obtain ⟨r, hr, ha, hb⟩ := h1
  refine ⟨_, _, _, _, _, _, _, _, _, exUi1, exUi2, ?_, uiSession_run hr, ha, ?_, by decide +kernel⟩
  · exact ⟨toyList [exUi1], ⟨toyList [exUi1], 0o644, true, .creator⟩, rfl, by simp, rfl⟩
  · unfold content at hb
    obtain ⟨f, hf, hd⟩ := Option.map_eq_some_iff.1 hb
    exact ⟨toyList [exUi2], f, rfl, hf, hd⟩

/-! ## C60 -/

/-- **C60**: executing a command changes no file but the counter's and one new temporary file in the configuration directory. At every moment (every point at which the process may die), that
file is accessible by its owner only and holds a part of the key. -/
theorem C60_private (A : Aead) (hash : List Char → U64) (T : TextCodec) (dir : Path) (env : ExecEnv) (key : List Char) (c : CommandData) (w : World) (q : Path)
    (hq : q ≠ dir ++ "/counter".toList ∧ ∀ n, q ≠ tmpPath (dir ++ "/counter".toList) n) :
    (execWithKey A hash T dir env key c w).2.fs q = w.fs q ∨
    (w.fs q = none ∧ (∃ d ∈ env.draws, q = dir ++ "/.tmp".toList ++ d) ∧
      ∃ f, (execWithKey A hash T dir env key c w).2.fs q = some f ∧ f.mode &&& 0o077 = 0 ∧ f.data <+: T.enc (trim key)) := by
  have h := execWithKey_spec A hash T dir env key c w
  unfold wp at h
  generalize (execWithKey A hash T dir env key c w).1 = o at h
  generalize (execWithKey A hash T dir env key c w).2 = w' at h
  have hnc : ¬ CounterFiles (counterPath dir) q := by
    rintro (hh | ⟨n, hh⟩)
    · exact hq.1 hh
    · exact hq.2 n hh
  cases h with
  | early _ _ ht => exact Or.inl (ht.fs _ (fun hh => hh))
  | used d hd _ _ habs h _ =>
    by_cases hqd : q = tempKeyPath dir d
    · subst hqd
      rcases h.file with hn | ⟨f, hf, hm, k, hk⟩
      · exact Or.inl (by rw [hn, habs])
      · exact Or.inr ⟨habs, ⟨d, hd, rfl⟩, f, hf, hm, by rw [hk]; exact List.take_prefix _ _⟩
    · refine Or.inl (h.touch.fs _ ?_)
      rintro (hh | hh)
      · exact hqd hh
      · exact hnc hh

/-- **C60**: when the execution has returned, with success or an error, no such file is left, unless removing it failed. -/
theorem C60_removed (A : Aead) (hash : List Char → U64) (T : TextCodec) (dir : Path) (env : ExecEnv) (key : List Char) (c : CommandData) (w : World)
    (hret : (execWithKey A hash T dir env key c w).1 ≠ .crash) (q : Path) (hq : q ≠ dir ++ "/counter".toList ∧ ∀ n, q ≠ tmpPath (dir ++ "/counter".toList) n)
    (hrm : .removeFailed q ∉ (execWithKey A hash T dir env key c w).2.log.drop w.log.length) : (execWithKey A hash T dir env key c w).2.fs q = w.fs q := by
  have h := execWithKey_spec A hash T dir env key c w
  unfold wp at h
  generalize (execWithKey A hash T dir env key c w).1 = o at h hret
  generalize (execWithKey A hash T dir env key c w).2 = w' at h hrm
  have hnc : ¬ CounterFiles (counterPath dir) q := by
    rintro (hh | ⟨n, hh⟩)
    · exact hq.1 hh
    · exact hq.2 n hh
  cases h with
  | early _ _ ht => exact ht.fs _ (fun hh => hh)
  | used d hd _ _ habs h hgone =>
    by_cases hqd : q = tempKeyPath dir d
    · subst hqd
      rw [hgone hret hrm, habs]
    · refine h.touch.fs _ ?_
      rintro (hh | hh)
      · exact hqd hh
      · exact hnc hh

/-- The key file exists while the command is sent (here the process dies after the key was written) and is gone afterwards. -/
example : ((execWithKey toyAead (fun n => BitVec.ofNat 64 n.length) toyTextCodec "/c".toList exExecEnv exClientKey exUi1 (exUiWorld [.ok, .ok, .crash 0])).2.fs "/c/.tmpAb12".toList).map
      (fun f => (f.mode, decide (f.data = toyTextCodec.enc (trim exClientKey)))) = some (0o600, true) ∧
    (execWithKey toyAead (fun n => BitVec.ofNat 64 n.length) toyTextCodec "/c".toList exExecEnv exClientKey exUi1 (exUiWorld [])).1 = .ok () ∧
    (execWithKey toyAead (fun n => BitVec.ofNat 64 n.length) toyTextCodec "/c".toList exExecEnv exClientKey exUi1 (exUiWorld [])).2.fs "/c/.tmpAb12".toList = none := by decide +kernel

end Ruroco
