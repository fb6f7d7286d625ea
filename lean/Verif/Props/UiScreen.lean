import Verif.Spec.UiScreen
import Verif.Props.UiFrames
import Verif.Props.Started

/-! # C111: what the graphical client shows -/

namespace Ruroco

open Spec

section
variable {C : ListCodec} {A : Aead} {hash : List Char → U64} {T : TextCodec} {dir : Path} {w0 : World}

/-- The commands and the text after an action. -/
def pairAfter (u : Ui) (a : UiAction) : List CommandData × List Char :=
  match a with
  | .add .. => (listAfter u a, showList (listAfter u a))
  | .save => (listAfter u a, showList (listAfter u a))
  | .edit t => (u.list, t)
  | .reset => (u.list, showList u.list)
  | .delete _ => (listAfter u a, u.configText)
  | .exec .. => (u.list, u.configText)

def pairAfterOpt (u : Ui) : Option UiAction → List CommandData × List Char
  | some a => pairAfter u a
  | none => (u.list, u.configText)

theorem act_pair {u u' : Ui} {a : UiAction} {o : UiObs} {w w' : World} (h : u.act C A hash T dir a w = (.ok (u', o), w')) : (u'.list, u'.configText) = pairAfter u a := by
  cases a with
  | add a1 a2 a3 a4 a5 a6 =>
    obtain ⟨l, w1, h1, h2⟩ := act_bind_ok h
    obtain ⟨_, w2, _, h3⟩ := act_bind_ok h1
    cases h3
    cases h2
    rfl
  | delete c =>
    obtain ⟨l, w1, h1, h2⟩ := act_bind_ok h
    obtain ⟨_, w2, _, h3⟩ := act_bind_ok h1
    cases h3
    cases h2
    rfl
  | exec env key c =>
    obtain ⟨r, w1, h1, h2⟩ := act_bind_ok h
    cases r with
    | ok _ => cases h2; rfl
    | error _ => cases h2; rfl
  | edit t => cases h; rfl
  | save =>
    obtain ⟨l, w1, h1, h2⟩ := act_bind_ok h
    obtain ⟨_, w2, _, h3⟩ := act_bind_ok h1
    cases h3
    cases h2
    rfl
  | reset => cases h; rfl

/-- An action of a screen. -/
theorem Screen.act_ok {s s' : Screen} {a : UiAction} {w w' : World} (h : s.act C A hash T dir a w = (.ok s', w')) :
    (s'.ui.list, s'.ui.configText) = pairAfter s.ui a ∧ s' = { s with ui := s'.ui } := by
  unfold Screen.act at h
  obtain ⟨r, w1, h1, h2⟩ := act_bind_ok h
  cases h2
  exact ⟨act_pair h1, rfl⟩

theorem Screen.actOpt_ok {s s' : Screen} {a : Option UiAction} {w w' : World} (h : s.actOpt C A hash T dir a w = (.ok s', w')) :
    (s'.ui.list, s'.ui.configText) = pairAfterOpt s.ui a ∧ s' = { s with ui := s'.ui } := by
  cases a with
  | none => cases h; exact ⟨rfl, rfl⟩
  | some a => exact Screen.act_ok h

/-- The dashboard's text, from the text it has after a paste. -/
theorem Screen.dashboardConfig_ok {s s' : Screen} {f : Frame} {w w' : World} (h : s.dashboardConfig C A hash T dir f w = (.ok s', w')) :
    (s'.ui.list, s'.ui.configText) = (let t := if f.reset then showList s.ui.list else (f.configEdit.getD id) s.ui.configText
      if f.save then (sortCmds (parseConfig t), showList (sortCmds (parseConfig t))) else (s.ui.list, t)) ∧ s'.form = s.form ∧ s'.showKey = s.showKey := by
  unfold Screen.dashboardConfig at h
  obtain ⟨s1, w1, h1, h⟩ := act_bind_ok h
  obtain ⟨s2, w2, h2, h⟩ := act_bind_ok h
  obtain ⟨s3, w3, h3, h⟩ := act_bind_ok h
  obtain ⟨p1, q1⟩ := Screen.actOpt_ok h1
  obtain ⟨p2, q2⟩ := Screen.actOpt_ok h2
  obtain ⟨p3, q3⟩ := Screen.actOpt_ok h3
  have e : s'.ui = s3.ui ∧ s'.form = s.form ∧ s'.showKey = s.showKey := by
    have : s3.form = s.form ∧ s3.showKey = s.showKey := by rw [q3, q2, q1]; exact ⟨rfl, rfl⟩
    cases hp : f.pasteConfig with
    | true => rw [hp] at h; cases h; exact ⟨rfl, this⟩
    | false => rw [hp] at h; cases h; exact ⟨rfl, this⟩
  refine ⟨?_, e.2⟩
  rw [e.1]
  have r1 : s1.ui.list = s.ui.list ∧ s1.ui.configText = (f.configEdit.getD id) s.ui.configText := by
    cases hc : f.configEdit with
    | none => rw [hc] at p1; exact ⟨congrArg Prod.fst p1, congrArg Prod.snd p1⟩
    | some g => rw [hc] at p1; exact ⟨congrArg Prod.fst p1, congrArg Prod.snd p1⟩
  have r2 : s2.ui.list = s.ui.list ∧ s2.ui.configText = if f.reset then showList s.ui.list else (f.configEdit.getD id) s.ui.configText := by
    cases hc : f.reset with
    | true => rw [hc] at p2; exact ⟨(congrArg Prod.fst p2).trans r1.1, by rw [show s2.ui.configText = showList s1.ui.list from congrArg Prod.snd p2, r1.1]; rfl⟩
    | false => rw [hc] at p2; exact ⟨(congrArg Prod.fst p2).trans r1.1, (congrArg Prod.snd p2).trans r1.2⟩
  cases hc : f.save with
  | true =>
    rw [hc] at p3
    rw [p3]
    change (sortCmds (parseConfig s2.ui.configText), showList (sortCmds (parseConfig s2.ui.configText))) = _
    rw [r2.2]
    rfl
  | false =>
    rw [hc] at p3
    rw [p3]
    change (s2.ui.list, s2.ui.configText) = _
    rw [r2.1, r2.2]
    rfl

/-- What one frame does to the commands, the text, the form and the visibility of the key. -/
theorem Screen.frame_ok {s s' : Screen} {f : Frame} {fs : List Frame} {w w' : World} {l0 : List CommandData} (h : s.frame C A hash T dir f w = (.ok s', w'))
    (htab : s.tab = shownTab fs) (htarget : s.target = openRequest fs) (hc : (s.ui.list, s.ui.configText) = shownCommands l0 fs) (hf : s.form = shownForm fs) (hk : s.showKey = keyVisible fs) :
    (s'.ui.list, s'.ui.configText) = shownCommands l0 (f :: fs) ∧ s'.form = shownForm (f :: fs) ∧ s'.showKey = keyVisible (f :: fs) := by
  have ht : f.tab.getD s.tab = shownTab (f :: fs) := by rw [htab]; rfl
  unfold Screen.frame at h
  rw [ht] at h
  have c1 : (shownCommands l0 fs).1 = s.ui.list := by rw [← hc]
  have c2 : (shownCommands l0 fs).2 = s.ui.configText := by rw [← hc]
  rw [shownCommands.eq_2, shownForm.eq_2, keyVisible.eq_2]
  rw [← hf, ← hk]
  simp only [c1, c2]
  cases htt : shownTab (f :: fs) with
  | dashboard =>
    rw [htt] at h
    simp only at h
    obtain ⟨s1, w1, h1, h⟩ := act_bind_ok h
    cases h
    obtain ⟨p, q, r⟩ := Screen.dashboardConfig_ok h1
    have e : (s1.dashboardKey f).ui = s1.ui ∧ (s1.dashboardKey f).form = s1.form ∧ (s1.dashboardKey f).showKey = (if f.toggle then !s1.showKey else s1.showKey) := by
      unfold Screen.dashboardKey
      cases f.keyEdit <;> cases f.generate <;> cases f.toggle <;> cases f.pasteKey <;> exact ⟨rfl, rfl, rfl⟩
    rw [e.1, e.2.1, e.2.2, p, q, r]
    unfold textBeforeSave
    unfold Screen.receivePaste
    rw [htarget]
    refine ⟨?_, ?_, ?_⟩
    · cases f.paste with
      | none => rfl
      | some t =>
        cases openRequest fs with
        | none => rfl
        | some x => cases x <;> rfl
    · cases f.paste with
      | none => rfl
      | some t =>
        cases openRequest fs with
        | none => rfl
        | some x => cases x <;> rfl
    · cases f.paste with
      | none => cases f.toggle <;> rfl
      | some t =>
        cases openRequest fs with
        | none => cases f.toggle <;> rfl
        | some x => cases x <;> cases f.toggle <;> rfl
  | create =>
    rw [htt] at h
    simp only at h
    unfold Screen.create at h
    cases ha : f.add with
    | false =>
      rw [ha] at h
      cases h
      exact ⟨rfl, rfl, rfl⟩
    | true =>
      rw [ha] at h
      simp only [↓reduceIte] at h
      obtain ⟨s1, w1, h1, h⟩ := act_bind_ok h
      cases h
      obtain ⟨p, q⟩ := Screen.act_ok h1
      refine ⟨?_, rfl, by change s1.showKey = _; rw [q]; rfl⟩
      change (s1.ui.list, s1.ui.configText) = _
      rw [p]
      unfold pairAfter listAfter
      have hw : ∀ x : List Char, List.filter (fun c => !isWs c) (List.filter (fun c => !isWs c) x) = List.filter (fun c => !isWs c) x := fun x => by rw [List.filter_filter]; congr 1; funext c; cases isWs c <;> rfl
      simp only [hw]
      rfl
  | execute =>
    rw [htt] at h
    simp only at h
    unfold Screen.execute at h
    obtain ⟨s1, w1, h1, h⟩ := act_bind_ok h
    obtain ⟨p, q⟩ := Screen.actOpt_ok h1
    obtain ⟨p', q'⟩ := Screen.actOpt_ok h
    refine ⟨?_, by rw [q', q]; rfl, by rw [q', q]; rfl⟩
    have e : (s'.ui.list, s'.ui.configText) = (s1.ui.list, s1.ui.configText) := by
      rw [p']
      cases f.exec <;> rfl
    rw [e, p]
    cases f.delete <;> rfl

end

/-- **C111**. Whatever happened to the disk, the network and the clock, and whichever writes and sendings failed: what the application shows is told by the commands it read at its last start and by what the
user did since. -/
theorem C111_shown (C : ListCodec) (A : Aead) (hash : List Char → U64) (T : TextCodec) (dir : Path) (w0 : World) (fs : List Frame) (s : Screen) (w : World) (h : Session C A hash T dir w0 fs s w) :
    ∃ l0 ws ws', loadCommands C (listPath dir) ws = (.ok l0, ws') ∧ (s.ui.list, s.ui.configText) = shownCommands l0 fs ∧ s.form = shownForm fs ∧ s.tab = shownTab fs ∧ s.key = shownKey fs ∧
      s.showKey = keyVisible fs := by
  have start : ∀ {wa wb : World} {x : Screen}, Screen.start C dir wa = (.ok x, wb) → ∃ l0 ws ws', loadCommands C (listPath dir) ws = (.ok l0, ws') ∧ (x.ui.list, x.ui.configText) = shownCommands l0 [] ∧
      x.form = shownForm [] ∧ x.tab = shownTab [] ∧ x.key = shownKey [] ∧ x.showKey = keyVisible [] := by
    intro wa wb x hx
    unfold Screen.start at hx
    obtain ⟨r, w1, h1, h2⟩ := act_bind_ok hx
    unfold Ui.start at h1
    obtain ⟨l, w2, h3, h4⟩ := act_bind_ok h1
    cases h4
    cases h2
    exact ⟨l, _, _, h3, rfl, rfl, rfl, rfl, rfl⟩
  induction h with
  | start h => exact start h
  | restart hr hfile h ih => exact start h
  | crash f hr hfile hc hfile' h ih => exact start h
  | frame f hr hfile h ih =>
    obtain ⟨l0, ws, ws', hl, e1, e2, e3, e4, e5⟩ := ih
    obtain ⟨i1, i2, i3, i4⟩ := session_inv hr
    obtain ⟨j1, j2, j3, j4⟩ := session_inv (.frame f hr hfile h)
    obtain ⟨k1, k2, k3⟩ := Screen.frame_ok h i2 i3 e1 e2 e5
    exact ⟨l0, ws, ws', hl, k1, k2, j2, j4, k3⟩

/-- **C111**. "Execute" sends the command clicked, with the key that the dashboard shows; nothing else happens in that frame, and the command is then shown green if that worked and red otherwise. -/
theorem C111_execute (C : ListCodec) (A : Aead) (hash : List Char → U64) (T : TextCodec) (dir : Path) (w0 : World) (fs : List Frame) (s s' : Screen) (w w1 w2 : World) (f : Frame) (env : ExecEnv) (c : CommandData)
    (h : Session C A hash T dir w0 fs s w) (htab : shownTab (f :: fs) = .execute) (hx : f.exec = some (env, c)) (hd : f.delete = none) (hf : s.frame C A hash T dir f w1 = (.ok s', w2)) :
    (execWithKey A hash T dir env (shownKey fs) c w1).2 = w2 ∧ ((∃ u, (execWithKey A hash T dir env (shownKey fs) c w1).1 = .ok u) → s'.ui.colorFor c = .green) ∧
      ((∃ e, (execWithKey A hash T dir env (shownKey fs) c w1).1 = .err e) → s'.ui.colorFor c = .red) ∧ (execWithKey A hash T dir env (shownKey fs) c w1).1 ≠ .crash := by
  obtain ⟨i1, i2, i3, i4⟩ := session_inv h
  have ht : f.tab.getD s.tab = .execute := by rw [i2]; exact htab
  unfold Screen.frame at hf
  rw [ht] at hf
  simp only at hf
  unfold Screen.execute at hf
  rw [hd] at hf
  obtain ⟨s1, w3, h1, hf⟩ := act_bind_ok hf
  cases h1
  rw [hx] at hf
  change Screen.act C A hash T dir { s with tab := .execute } (.exec env s.key c) w1 = _ at hf
  rw [i4] at hf
  unfold Screen.act at hf
  obtain ⟨r, w4, h2, hf⟩ := act_bind_ok hf
  cases hf
  unfold Ui.act at h2
  simp only at h2
  obtain ⟨r', w5, h3, h2⟩ := act_bind_ok h2
  rcases hrun : execWithKey A hash T dir env (shownKey fs) c w1 with ⟨o, w6⟩
  unfold Act.attempt at h3
  rw [hrun] at h3
  cases o with
  | ok u =>
    cases h3
    cases h2
    refine ⟨rfl, fun _ => ?_, fun ⟨e, he⟩ => (by cases he), nofun⟩
    simp [Ui.colorFor, Ui.setStatus]
  | err e =>
    cases h3
    cases h2
    refine ⟨rfl, fun ⟨e, he⟩ => (by cases he), fun _ => ?_, nofun⟩
    simp [Ui.colorFor, Ui.setStatus]
  | crash => cases h3

/-- A session that generates a key and executes a command, with success. -/
example : (match Screen.start toyListCodec "/c".toList (exUiWorld []) with
    | (.ok s, w) =>
      match (do
        let s ← s.frame toyListCodec toyAead (fun n => BitVec.ofNat 64 n.length) toyTextCodec "/c".toList { generate := some exKeyText }
        s.frame toyListCodec toyAead (fun n => BitVec.ofNat 64 n.length) toyTextCodec "/c".toList { tab := some .execute, exec := some (exExecEnv, exUi1) } : Act Screen) w with
      | (.ok s, _) => s.ui.colorFor exUi1
      | _ => .gray
    | _ => .gray) = .green := by decide +kernel

/-- A session with a paste, "Save", "Add Command" and "Delete": the text still shows what was deleted (C61). -/
example : shownCommands [] [{ tab := some .execute, delete := some exUi2 }, { tab := some .create, formEdit := fun x => { x with address := "h:80".toList, command := "o p".toList, ipv4 := true }, add := true },
      { save := true }, { paste := some (dataToCommand exUi2 ++ ['\n', ' ']) }, { pasteConfig := true }] = ([exUi1], showList [exUi2, exUi1]) ∧
    shownForm [{ tab := some .create, formEdit := fun x => { x with address := "h:80".toList, command := "o p".toList, ipv4 := true }, add := true }] = ⟨[], "op".toList, [], false, false, false⟩ := by
  decide +kernel

/-- "Reset" discards what was typed. -/
example : shownCommands [exUi2] [{ reset := true }, { configEdit := some (fun _ => "x".toList) }] = ([exUi2], showList [exUi2]) := by decide +kernel

end Ruroco
