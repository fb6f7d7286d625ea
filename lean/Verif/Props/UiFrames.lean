import Verif.Spec.UiFrames
import Verif.Props.Ui
import Verif.Spec.Terms.UiFrames

/-!
# C81: pasted text goes where it was asked for; and sessions are histories of `UiRun`
-/

namespace Ruroco

open Spec (shownTab openRequest KeyPasted KeyTouched TextPasted TextTouched Answered keyAfter shownKey)

section
variable {C : ListCodec} {A : Aead} {hash : List Char → U64} {T : TextCodec} {dir : Path} {w0 : World}

variable (C A hash T dir w0) in
/-- The list, text and colours `u` are reachable by actions of the user, with the file of the list as in `w`. -/
def At (u : Ui) (w : World) : Prop := ∃ os w1, UiRun C A hash T dir w0 os u w1 ∧ w.fs (listPath dir) = w1.fs (listPath dir)

variable (C A hash T dir w0) in
/-- After a piece of a frame: a reachable state again, or something died during an action in a reachable state. -/
def After (P : Screen → Prop) : Out Screen → World → Prop
  | .ok s, w => At C A hash T dir w0 s.ui w ∧ P s
  | _, w => ∃ u w1 a e, At C A hash T dir w0 u w1 ∧ u.act C A hash T dir a w1 = (e, w)

theorem At.step {u u' : Ui} {w w' : World} {o : UiObs} (h : At C A hash T dir w0 u w) {a : UiAction} (ha : u.act C A hash T dir a w = (.ok (u', o), w')) : At C A hash T dir w0 u' w' := by
  obtain ⟨os, w1, h1, h2⟩ := h
  exact ⟨_, _, .act a h1 h2 ha, rfl⟩

/-- What else is on the screen besides list, text and colours. -/
structure SameScreen (s s' : Screen) : Prop where
  tab : s'.tab = s.tab
  key : s'.key = s.key
  target : s'.target = s.target

theorem SameScreen.refl (s : Screen) : SameScreen s s := ⟨rfl, rfl, rfl⟩

theorem SameScreen.trans {a b c : Screen} (h : SameScreen a b) (h' : SameScreen b c) : SameScreen a c := ⟨h'.tab.trans h.tab, h'.key.trans h.key, h'.target.trans h.target⟩

theorem Screen.act_spec (s : Screen) (a : UiAction) (w : World) (h : At C A hash T dir w0 s.ui w) :
    wp (s.act C A hash T dir a) w (After C A hash T dir w0 (fun s' => SameScreen s s' ∧ ∃ o w', s.ui.act C A hash T dir a w = (.ok (s'.ui, o), w'))) := by
  unfold Screen.act
  rw [wp_bind]
  unfold wp
  cases he : s.ui.act C A hash T dir a w with
  | mk r w' =>
    cases r with
    | ok x => exact ⟨h.step he, ⟨rfl, rfl, rfl⟩, _, _, rfl⟩
    | err e => exact ⟨_, _, _, _, h, he⟩
    | crash => exact ⟨_, _, _, _, h, he⟩

/-- Sequencing. -/
theorem after_bind {m : Act Screen} {k : Screen → Act Screen} {w : World} {P Q : Screen → Prop} (hm : wp m w (After C A hash T dir w0 P))
    (hk : ∀ s w', At C A hash T dir w0 s.ui w' → P s → wp (k s) w' (After C A hash T dir w0 Q)) : wp (m >>= k) w (After C A hash T dir w0 Q) := by
  rw [wp_bind]
  unfold wp at hm ⊢
  cases he : m w with
  | mk o w' =>
    rw [he] at hm
    cases o with
    | ok s => exact hk s w' hm.1 hm.2
    | err e => exact hm
    | crash => exact hm

theorem after_mono {m : Act Screen} {w : World} {P Q : Screen → Prop} (hm : wp m w (After C A hash T dir w0 P)) (h : ∀ s, P s → Q s) : wp m w (After C A hash T dir w0 Q) := by
  refine wp_mono hm ?_
  intro o w'
  cases o with
  | ok s => exact fun hh => ⟨hh.1, h s hh.2⟩
  | err e => exact id
  | crash => exact id

theorem after_pure {s : Screen} {w : World} {P : Screen → Prop} (h : At C A hash T dir w0 s.ui w) (hp : P s) : wp (pure s : Act Screen) w (After C A hash T dir w0 P) := ⟨h, hp⟩

theorem edit_act (u : Ui) (t : List Char) (w : World) : u.act C A hash T dir (.edit t) w = (.ok ({ u with configText := t }, .edited), w) := rfl

theorem reset_act (u : Ui) (w : World) : u.act C A hash T dir .reset w = (.ok ({ u with configText := showList u.list }, .shown), w) := rfl

theorem Screen.receivePaste_spec (s : Screen) (p : Option (List Char)) (w : World) (h : At C A hash T dir w0 s.ui w) :
    At C A hash T dir w0 (s.receivePaste p).ui w ∧ (s.receivePaste p).tab = s.tab ∧ (s.receivePaste p).target = (if p.isSome then none else s.target) ∧
      (s.receivePaste p).key = (match p, s.target with | some t, some .key => t | _, _ => s.key) ∧
      ((s.receivePaste p).key ≠ s.key → p ≠ none ∧ s.target = some .key) ∧ ((s.receivePaste p).ui.configText ≠ s.ui.configText → p ≠ none ∧ s.target = some .config) := by
  cases p with
  | none => exact ⟨h, rfl, rfl, rfl, fun h => absurd rfl h, fun h => absurd rfl h⟩
  | some t =>
    unfold Screen.receivePaste
    cases ht : s.target with
    | none => exact ⟨h, rfl, ht, rfl, fun h => absurd rfl h, fun h => absurd rfl h⟩
    | some x =>
      cases x with
      | key => exact ⟨h, rfl, rfl, rfl, fun _ => ⟨nofun, rfl⟩, fun h => absurd rfl h⟩
      | config => exact ⟨h.step (edit_act _ t w), rfl, rfl, rfl, fun h => absurd rfl h, fun _ => ⟨nofun, rfl⟩⟩

theorem Screen.actOpt_spec (s : Screen) (a : Option UiAction) (w : World) (h : At C A hash T dir w0 s.ui w) :
    wp (s.actOpt C A hash T dir a) w (After C A hash T dir w0 (fun s' => SameScreen s s' ∧ (s'.ui ≠ s.ui → ∃ x o w', a = some x ∧ s.ui.act C A hash T dir x w = (.ok (s'.ui, o), w')))) := by
  unfold Screen.actOpt
  cases a with
  | none => exact after_pure h ⟨.refl s, fun h => absurd rfl h⟩
  | some a => exact after_mono (s.act_spec a w h) (fun s' ⟨h1, o, w', h2⟩ => ⟨h1, fun _ => ⟨a, o, w', rfl, h2⟩⟩)

theorem Screen.dashboardConfig_spec (s : Screen) (f : Frame) (w : World) (h : At C A hash T dir w0 s.ui w) :
    wp (s.dashboardConfig C A hash T dir f) w (After C A hash T dir w0 (fun s' => s'.tab = s.tab ∧ s'.key = s.key ∧ s'.target = (if f.pasteConfig then some .config else s.target) ∧
      (s'.ui.configText ≠ s.ui.configText → f.configEdit ≠ none ∨ f.reset = true ∨ f.save = true))) := by
  unfold Screen.dashboardConfig
  refine after_bind (s.actOpt_spec _ w h) ?_
  intro s1 w1 h1 ⟨p1, q1⟩
  refine after_bind (s1.actOpt_spec _ w1 h1) ?_
  intro s2 w2 h2 ⟨p2, q2⟩
  refine after_bind (s2.actOpt_spec _ w2 h2) ?_
  intro s3 w3 h3 ⟨p3, q3⟩
  have p := (p1.trans p2).trans p3
  have q : s3.ui.configText ≠ s.ui.configText → f.configEdit ≠ none ∨ f.reset = true ∨ f.save = true := by
    intro hne
    by_cases e3 : s3.ui = s2.ui
    · by_cases e2 : s2.ui = s1.ui
      · by_cases e1 : s1.ui = s.ui
        · rw [e3, e2, e1] at hne
          exact absurd rfl hne
        · obtain ⟨x, _, _, hx, _⟩ := q1 e1
          exact .inl (fun hn => by rw [hn] at hx; cases hx)
      · obtain ⟨x, _, _, hx, _⟩ := q2 e2
        refine .inr (.inl ?_)
        cases hr : f.reset with
        | true => rfl
        | false => rw [hr] at hx; cases hx
    · obtain ⟨x, _, _, hx, _⟩ := q3 e3
      refine .inr (.inr ?_)
      cases hr : f.save with
      | true => rfl
      | false => rw [hr] at hx; cases hx
  cases f.pasteConfig with
  | false => exact after_pure h3 ⟨p.tab, p.key, p.target, q⟩
  | true => exact after_pure (s := { s3 with target := some .config }) h3 ⟨p.tab, p.key, rfl, q⟩

theorem Screen.dashboardKey_spec (s : Screen) (f : Frame) :
    (s.dashboardKey f).ui = s.ui ∧ (s.dashboardKey f).tab = s.tab ∧ (s.dashboardKey f).target = (if f.pasteKey then some .key else s.target) ∧ (s.dashboardKey f).key = f.generate.getD ((f.keyEdit.getD id) s.key) ∧
      ((s.dashboardKey f).key ≠ s.key → f.keyEdit ≠ none ∨ f.generate ≠ none) := by
  unfold Screen.dashboardKey
  cases f.keyEdit <;> cases f.generate <;> cases f.toggle <;> cases f.pasteKey <;> simp

/-- The buttons of the Execute tab leave the text alone. -/
theorem act_keeps_text {u u' : Ui} {a : UiAction} {o : UiObs} {w w' : World} (ha : (∃ c, a = .delete c) ∨ (∃ env k c, a = .exec env k c)) (hu : u.act C A hash T dir a w = (.ok (u', o), w')) :
    u'.configText = u.configText := by
  have : wp (u.act C A hash T dir a) w (fun o _ => ∀ u' x, o = .ok (u', x) → u'.configText = u.configText) := by
    rcases ha with ⟨c, rfl⟩ | ⟨env, k, c, rfl⟩
    · simp only [Ui.act]
      rw [wp_bind]
      refine wp_mono (Q := fun _ _ => True) trivial ?_
      intro r w1 _
      cases r with
      | ok l => intro u' x h; cases h; rfl
      | err e => nofun
      | crash => nofun
    · simp only [Ui.act]
      rw [wp_bind]
      refine wp_mono (Q := fun _ _ => True) trivial ?_
      intro r w1 _
      cases r with
      | ok y =>
        cases y with
        | ok _ => intro u' x h; cases h; rfl
        | error _ => intro u' x h; cases h; rfl
      | err e => nofun
      | crash => nofun
  unfold wp at this
  rw [hu] at this
  exact this _ _ rfl

/-- One frame: what is on the screen afterwards. -/
theorem Screen.frame_spec (s : Screen) (f : Frame) (fs : List Frame) (w : World) (h : At C A hash T dir w0 s.ui w) (htab : s.tab = shownTab fs) (htarget : s.target = openRequest fs) :
    wp (s.frame C A hash T dir f) w (After C A hash T dir w0 (fun s' => s'.tab = shownTab (f :: fs) ∧ s'.target = openRequest (f :: fs) ∧ s'.key = keyAfter f fs s.key ∧
      (s'.key ≠ s.key → KeyTouched f fs ∨ KeyPasted f fs) ∧ (s'.ui.configText ≠ s.ui.configText → TextTouched f fs ∨ TextPasted f fs))) := by
  have e : f.tab.getD s.tab = shownTab (f :: fs) := by rw [htab]; rfl
  unfold Screen.frame
  simp only
  rw [e]
  cases ht : shownTab (f :: fs) with
  | dashboard =>
    simp only
    obtain ⟨r1, r2, r3, rk, r4, r5⟩ := Screen.receivePaste_spec { s with tab := .dashboard } f.paste w h
    refine after_bind (Screen.dashboardConfig_spec _ f w r1) ?_
    intro s1 w1 h1 ⟨p1, p2, p3, p4⟩
    obtain ⟨k1, k2, k3, kk, k4⟩ := s1.dashboardKey_spec f
    refine after_pure (by rw [k1]; exact h1) ⟨by rw [k2, p1, r2], ?_, ?_, ?_, ?_⟩
    · rw [k3, p3, r3]
      have : openRequest (f :: fs) = if f.pasteKey then some .key else if f.pasteConfig then some .config else if f.paste.isSome then none else openRequest fs := by
        conv => lhs; unfold openRequest
        simp [ht]
      rw [this, ← htarget]
    · rw [kk, p2, rk]
      unfold keyAfter
      rw [← htarget, if_neg (by simp [ht])]
      rcases f.paste with _ | t <;> rcases s.target with _ | _ | _ <;> rfl
    · intro hne
      by_cases hk : (s1.dashboardKey f).key = s1.key
      · right
        have : (Screen.receivePaste { s with tab := .dashboard } f.paste).key ≠ s.key := by rw [← p2, ← hk]; exact hne
        have := r4 this
        exact ⟨ht, this.1, by rw [← htarget]; exact this.2⟩
      · exact .inl ⟨ht, k4 hk⟩
    · rw [k1]
      intro hne
      by_cases hc : s1.ui.configText = (Screen.receivePaste { s with tab := .dashboard } f.paste).ui.configText
      · right
        have := r5 (by rw [← hc]; exact hne)
        exact ⟨ht, this.1, by rw [← htarget]; exact this.2⟩
      · exact .inl (.inl ⟨ht, p4 hc⟩)
  | create =>
    simp only
    have hreq : openRequest (f :: fs) = openRequest fs := by
      conv => lhs; unfold openRequest
      simp [ht]
    have hkey : keyAfter f fs s.key = s.key := by unfold keyAfter; simp [ht]
    unfold Screen.create
    simp only
    cases ha : f.add with
    | false => exact after_pure h ⟨rfl, by rw [hreq]; exact htarget, hkey.symm, fun h => absurd rfl h, fun h => absurd rfl h⟩
    | true =>
      simp only [if_true]
      refine after_bind (Screen.act_spec _ _ w h) ?_
      intro s1 w1 h1 ⟨p1, _⟩
      exact after_pure h1 ⟨p1.tab, by rw [hreq, ← htarget]; exact p1.target, by rw [hkey]; exact p1.key, fun hne => absurd p1.key hne, fun _ => .inl (.inr ⟨ht, ha⟩)⟩
  | execute =>
    simp only
    have hreq : openRequest (f :: fs) = openRequest fs := by
      conv => lhs; unfold openRequest
      simp [ht]
    have hkey : keyAfter f fs s.key = s.key := by unfold keyAfter; simp [ht]
    unfold Screen.execute
    refine after_bind (Screen.actOpt_spec _ _ w h) ?_
    intro s1 w1 h1 ⟨p1, q1⟩
    refine after_mono (Screen.actOpt_spec _ _ w1 h1) ?_
    intro s2 ⟨p2, q2⟩
    have p := p1.trans p2
    have e1 : s1.ui.configText = s.ui.configText := by
      by_cases e : s1.ui = s.ui
      · rw [e]
      · obtain ⟨x, o, w', hx, ha⟩ := q1 e
        cases hd : f.delete with
        | none => rw [hd] at hx; cases hx
        | some c =>
          rw [hd] at hx
          cases hx
          exact act_keeps_text (.inl ⟨c, rfl⟩) ha
    have e2 : s2.ui.configText = s1.ui.configText := by
      by_cases e : s2.ui = s1.ui
      · rw [e]
      · obtain ⟨x, o, w', hx, ha⟩ := q2 e
        cases hd : f.exec with
        | none => rw [hd] at hx; cases hx
        | some c =>
          rw [hd] at hx
          cases hx
          exact act_keeps_text (.inr ⟨_, _, _, rfl⟩) ha
    exact ⟨p.tab, by rw [hreq, ← htarget]; exact p.target, by rw [hkey]; exact p.key, fun hne => absurd p.key hne, fun hne => absurd (e2.trans e1) hne⟩

theorem Screen.start_ok {w w' : World} {s : Screen} (h : Screen.start C dir w = (.ok s, w')) : (∃ o, Ui.start C dir w = (.ok (s.ui, o), w')) ∧ s.tab = .dashboard ∧ s.target = none ∧ s.key = [] := by
  have : wp (Screen.start C dir) w (fun o w' => ∀ s, o = .ok s → (∃ x, Ui.start C dir w = (.ok (s.ui, x), w')) ∧ s.tab = .dashboard ∧ s.target = none ∧ s.key = []) := by
    unfold Screen.start
    rw [wp_bind]
    unfold wp
    cases hu : Ui.start C dir w with
    | mk o w1 =>
      cases o with
      | ok x => intro s h; cases h; exact ⟨⟨_, rfl⟩, rfl, rfl, rfl⟩
      | err e => nofun
      | crash => nofun
  unfold wp at this
  rw [h] at this
  exact this s rfl

/-- What is on the screen in a session is what the user's doings say, and list, text and colours are those of a history of `UiRun`, so that C50, C51, C61 and C62 speak about sessions. -/
theorem session_inv {fs : List Frame} {s : Screen} {w : World} (h : Session C A hash T dir w0 fs s w) : At C A hash T dir w0 s.ui w ∧ s.tab = shownTab fs ∧ s.target = openRequest fs ∧ s.key = shownKey fs := by
  induction h with
  | start h =>
    obtain ⟨⟨o, h1⟩, h2, h3, h4⟩ := Screen.start_ok h
    exact ⟨⟨_, _, .start h1, rfl⟩, h2, h3, h4⟩
  | frame f hr hfile h ih =>
    obtain ⟨⟨os, w1, h1, h2⟩, h3, h4, hk⟩ := ih
    have := Screen.frame_spec (C := C) (A := A) (hash := hash) (T := T) _ f _ _ ⟨os, w1, h1, hfile.trans h2⟩ h3 h4
    unfold wp at this
    rw [h] at this
    exact ⟨this.1, this.2.1, this.2.2.1, by rw [this.2.2.2.1, hk]; rfl⟩
  | restart hr hfile h ih =>
    obtain ⟨⟨os, w1, h1, h2⟩, h3, h4, hk⟩ := ih
    obtain ⟨⟨o, h5⟩, h6, h7, h8⟩ := Screen.start_ok h
    exact ⟨⟨_, _, .restart h1 (hfile.trans h2) h5, rfl⟩, h6, h7, h8⟩
  | crash f hr hfile hc hfile' h ih =>
    obtain ⟨⟨os, w1, h1, h2⟩, h3, h4, hk⟩ := ih
    obtain ⟨⟨o, h5⟩, h6, h7, h8⟩ := Screen.start_ok h
    refine ⟨?_, h6, h7, h8⟩
    have := Screen.frame_spec (C := C) (A := A) (hash := hash) (T := T) _ f _ _ ⟨os, w1, h1, hfile.trans h2⟩ h3 h4
    unfold wp at this
    rw [hc] at this
    rename_i out
    cases out with
    | ok s' =>
      obtain ⟨⟨os', w6, g1, g2⟩, _⟩ := this
      exact ⟨_, _, .restart g1 (hfile'.trans g2) h5, rfl⟩
    | err e =>
      obtain ⟨u, w5, a, e, ⟨os', w6, g1, g2⟩, g3⟩ := this
      exact ⟨_, _, .crash a g1 g2 g3 hfile' h5, rfl⟩
    | crash =>
      obtain ⟨u, w5, a, e, ⟨os', w6, g1, g2⟩, g3⟩ := this
      exact ⟨_, _, .crash a g1 g2 g3 hfile' h5, rfl⟩

end

/-- **C81**, proved part. In every session (also with restarts and crashes): the key changes only in a frame in which the user types in its field, generates one, or in which a paste arrives while the paste
button pressed last was the key's and no paste has arrived since; likewise the command text. Missing: that request may be an old one that was never answered, see `C81_stray_paste`. -/
theorem C81_paste_target_partial (C : ListCodec) (A : Aead) (hash : List Char → U64) (T : TextCodec) (dir : Path) (w0 : World) (fs : List Frame) (s s' : Screen) (w w1 w2 : World) (f : Frame)
    (h : Session C A hash T dir w0 fs s w) (hfile : w1.fs (listPath dir) = w.fs (listPath dir)) (hf : s.frame C A hash T dir f w1 = (.ok s', w2)) :
    (s'.key ≠ s.key → KeyTouched f fs ∨ KeyPasted f fs) ∧ (s'.ui.configText ≠ s.ui.configText → TextTouched f fs ∨ TextPasted f fs) := by
  obtain ⟨⟨os, w3, h1, h2⟩, h3, h4, _⟩ := session_inv h
  have := Screen.frame_spec (C := C) (A := A) (hash := hash) (T := T) s f fs w1 ⟨os, w3, h1, hfile.trans h2⟩ h3 h4
  unfold wp at this
  rw [hf] at this
  exact this.2.2.2.2

/-- An open request, when requests are answered in the next frame: the button was pressed in the latest frame. -/
theorem pressed_of_open {f : Frame} {fs : List Frame} {t : PasteTarget} (ha : Answered (f :: fs)) (h : openRequest fs = some t) :
    ∃ g rest, fs = g :: rest ∧ shownTab (g :: rest) = .dashboard ∧ (t = .key → g.pasteKey = true) ∧ (t = .config → g.pasteConfig = true) := by
  induction fs generalizing f with
  | nil => cases h
  | cons g rest ih =>
    have old : openRequest rest = some t → shownTab (g :: rest) ≠ .dashboard ∨ g.paste = none → False := by
      intro ho hn
      obtain ⟨g', rest', rfl, h1, h2, h3⟩ := ih ha.2 ho
      have hp : g'.pasteKey = true ∨ g'.pasteConfig = true := by
        cases t with
        | key => exact .inl (h2 rfl)
        | config => exact .inr (h3 rfl)
      have := ha.2.1 hp h1
      rcases hn with hn | hn
      · exact hn this.1
      · exact this.2 hn
    unfold openRequest at h
    split at h
    · rename_i hd
      exact (old h (.inl hd)).elim
    · rename_i hd
      have hd : shownTab (g :: rest) = .dashboard := by
        cases hx : shownTab (g :: rest) with
        | dashboard => rfl
        | create => exact absurd (by rw [hx]; nofun) hd
        | execute => exact absurd (by rw [hx]; nofun) hd
      split at h
      · rename_i hk
        cases h
        exact ⟨g, rest, rfl, hd, fun _ => hk, nofun⟩
      · split at h
        · rename_i hc
          cases h
          exact ⟨g, rest, rfl, hd, nofun, fun _ => hc⟩
        · split at h
          · cases h
          · rename_i hp
            exact (old h (.inr (by cases hq : g.paste with | none => rfl | some x => rw [hq] at hp; exact absurd rfl hp))).elim

/-- **C81**, when the clipboard always answers at once: pasted text goes to the key only if its paste button was pressed in the frame before. -/
theorem C81_answered_at_once (C : ListCodec) (A : Aead) (hash : List Char → U64) (T : TextCodec) (dir : Path) (w0 : World) (fs : List Frame) (s s' : Screen) (w w1 w2 : World) (f : Frame)
    (h : Session C A hash T dir w0 fs s w) (hfile : w1.fs (listPath dir) = w.fs (listPath dir)) (hf : s.frame C A hash T dir f w1 = (.ok s', w2)) (ha : Answered (f :: fs)) :
    (s'.key ≠ s.key → KeyTouched f fs ∨ ∃ g rest, fs = g :: rest ∧ g.pasteKey = true) ∧
    (s'.ui.configText ≠ s.ui.configText → TextTouched f fs ∨ ∃ g rest, fs = g :: rest ∧ g.pasteConfig = true) := by
  obtain ⟨h1, h2⟩ := C81_paste_target_partial C A hash T dir w0 fs s s' w w1 w2 f h hfile hf
  refine ⟨fun hne => ?_, fun hne => ?_⟩
  · rcases h1 hne with h | h
    · exact .inl h
    · obtain ⟨g, rest, e, _, hk, _⟩ := pressed_of_open ha h.2.2
      exact .inr ⟨g, rest, e, hk rfl⟩
  · rcases h2 hne with h | h
    · exact .inl h
    · obtain ⟨g, rest, e, _, _, hk⟩ := pressed_of_open ha h.2.2
      exact .inr ⟨g, rest, e, hk rfl⟩

/-- A frame of the dashboard with no click on list buttons changes no file. -/
theorem quietFrame {C : ListCodec} {A : Aead} {hash : List Char → U64} {T : TextCodec} {dir : Path} {s : Screen} {f : Frame} (w : World) (h1 : f.tab = none) (h2 : s.tab = .dashboard)
    (h3 : f.configEdit = none) (h4 : f.reset = false) (h5 : f.save = false) (h6 : f.pasteConfig = false) : s.frame C A hash T dir f w = (.ok ((s.receivePaste f.paste).dashboardKey f), w) := by
  obtain ⟨u, tab, key, sk, target, form⟩ := s
  obtain ⟨ft, fp, fce, fr, fsv, fpc, fke, fg, fto, fpk, ffe, fa, fd, fx⟩ := f
  simp only at h1 h2 h3 h4 h5 h6
  subst h1 h2 h3 h4 h5 h6
  rfl
/-- **C81**. The key on the dashboard is at every moment what the user put there, told from what they did; so it is with this key that "Execute" sends (`Screen.execute`). -/
theorem C81_key_shown (C : ListCodec) (A : Aead) (hash : List Char → U64) (T : TextCodec) (dir : Path) (w0 : World) (fs : List Frame) (s : Screen) (w : World)
    (h : Session C A hash T dir w0 fs s w) : s.key = shownKey fs := (session_inv h).2.2.2

/-- **C81** is false of the code: text pasted into the command text by Ctrl+V replaces the key as well, if the key's paste button was pressed before while the clipboard was empty. In every session that has
shown no frame yet. -/
theorem C81_stray_paste (C : ListCodec) (A : Aead) (hash : List Char → U64) (T : TextCodec) (dir : Path) (w0 : World) (s : Screen) (w : World)
    (h : Session C A hash T dir w0 [] s w) (k t : List Char) :
    ∃ s' w', Session C A hash T dir w0 (straySession k t) s' w' ∧ s'.key = t ∧ s'.ui.configText = s.ui.configText ++ t := by
  obtain ⟨u, tab, key, sk, target, form⟩ := s
  obtain ⟨_, h1, h2, h3⟩ := session_inv h
  simp only [shownTab, openRequest, shownKey] at h1 h2 h3
  subst h1 h2 h3
  refine ⟨_, _, .frame _ (.frame _ (.frame _ (.frame _ h rfl rfl) rfl rfl) rfl rfl) rfl rfl, rfl, rfl⟩

example : ∃ s w, Session toyListCodec toyAead (fun n => BitVec.ofNat 64 n.length) toyTextCodec "/c".toList (exUiWorld []) [] s w := ⟨_, _, .start rfl⟩

/-- The hypotheses of `C81_answered_at_once` are met by an ordinary paste. -/
example : Answered [{ paste := some "abc".toList }, { pasteKey := true }] ∧ KeyPasted { paste := some "abc".toList } [{ pasteKey := true }] ∧ shownKey [{ paste := some "abc".toList }, { pasteKey := true }] = "abc".toList := by
  refine ⟨⟨fun _ _ => ⟨rfl, nofun⟩, trivial⟩, ⟨rfl, nofun, rfl⟩, rfl⟩

end Ruroco
