import Verif.Spec.Android
import Verif.Props.UiFrames
import Verif.Spec.Terms.Android

/-!
# C99: the key on a phone; C100: keyboard and update on a phone
-/

namespace Ruroco

open Spec (KeyChanged WentWell focused failedHides)

/-! ## C99 -/

/-- `m` yields a screen with this key, waiting for this paste. -/
def KeyKept (k : List Char) (t : Option PasteTarget) (m : Act Screen) : Prop := ∀ w s' w', m w = (.ok s', w') → s'.key = k ∧ s'.target = t

theorem keyKept_pure {s : Screen} : KeyKept s.key s.target (pure s) := by
  intro w s' w' h
  cases h
  exact ⟨rfl, rfl⟩

theorem keyKept_bind {k k' : List Char} {t t' : Option PasteTarget} {m : Act Screen} {f : Screen → Act Screen} (h : KeyKept k t m)
    (hf : ∀ s, s.key = k → s.target = t → KeyKept k' t' (f s)) : KeyKept k' t' (m >>= f) := by
  intro w s' w' hw
  simp only [bind, Act.bind] at hw
  rcases hm : m w with ⟨o, w1⟩
  rw [hm] at hw
  cases o with
  | ok s =>
    obtain ⟨h1, h2⟩ := h w s w1 hm
    exact hf s h1 h2 w1 s' w' hw
  | err e => cases hw
  | crash => cases hw

section
variable {C : ListCodec} {A : Aead} {hash : List Char → U64} {T : TextCodec} {dir : Path}

theorem keyKept_act (s : Screen) (a : UiAction) : KeyKept s.key s.target (s.act C A hash T dir a) := by
  intro w s' w' h
  unfold Screen.act at h
  simp only [bind, Act.bind] at h
  rcases hm : s.ui.act C A hash T dir a w with ⟨o, w1⟩
  rw [hm] at h
  cases o with
  | ok x => cases h; exact ⟨rfl, rfl⟩
  | err e => cases h
  | crash => cases h

theorem keyKept_actOpt (s : Screen) (a : Option UiAction) : KeyKept s.key s.target (s.actOpt C A hash T dir a) := by
  cases a with
  | none => exact keyKept_pure
  | some a => exact keyKept_act s a

theorem keyKept_config (s : Screen) (f : PhoneFrame) : KeyKept s.key s.target (s.phoneConfig C A hash T dir f) := by
  unfold Screen.phoneConfig
  refine keyKept_bind (k := s.key) (t := s.target) ?_ ?_
  · unfold Screen.dashboardConfig
    refine keyKept_bind (keyKept_actOpt s _) ?_
    intro s1 h1 h2
    rw [← h1, ← h2]
    refine keyKept_bind (keyKept_actOpt s1 _) ?_
    intro s2 h3 h4
    rw [← h3, ← h4]
    refine keyKept_bind (keyKept_actOpt s2 _) ?_
    intro s3 h5 h6
    rw [← h5, ← h6]
    exact keyKept_pure
  · intro s1 h1 h2
    rw [← h1, ← h2]
    split
    · exact fun w s' w' h => by cases h; exact ⟨rfl, rfl⟩
    · exact keyKept_pure

theorem keyKept_create (s : Screen) (f : Frame) : KeyKept s.key s.target (s.create C A hash T dir f) := by
  unfold Screen.create
  simp only
  split
  · refine keyKept_bind (keyKept_act _ _) ?_
    intro s1 h1 h2
    exact fun w s' w' h => by cases h; exact ⟨h1, h2⟩
  · exact fun w s' w' h => by cases h; exact ⟨rfl, rfl⟩

theorem keyKept_execute (s : Screen) (f : Frame) : KeyKept s.key s.target (s.execute C A hash T dir f) := by
  unfold Screen.execute
  refine keyKept_bind (keyKept_actOpt s _) ?_
  intro s1 h1 h2
  rw [← h1, ← h2]
  exact keyKept_actOpt s1 _

/-- The key and the phone after a frame of the dashboard. -/
def keyFrame (f : PhoneFrame) (x : List Char × Phone) : List Char × Phone :=
  let x := match f.keyEdit with
    | some g => (g x.1, x.2.put (g x.1) f.putTyped)
    | none => x
  let x := match f.generate with
    | some k => (k, x.2.put k f.putGenerated)
    | none => x
  match f.pasteKey, f.clipKey with
  | true, some t => (t, x.2.put t f.putPasted)
  | _, _ => x

theorem phoneKey_spec (f : PhoneFrame) (s : Screen) (p : Phone) :
    (((Screen.phoneKey f (s, p)).1.key, (Screen.phoneKey f (s, p)).2) = keyFrame f (s.key, p)) ∧ (Screen.phoneKey f (s, p)).1.target = s.target := by
  unfold Screen.phoneKey keyFrame Screen.saveKey
  cases f.keyEdit <;> cases f.generate <;> cases f.toggle <;> cases f.pasteKey <;> cases f.clipKey <;> exact ⟨rfl, rfl⟩

/-- One frame: what becomes of the key and of what is stored. -/
theorem phoneFrame_spec (s s' : Screen) (p p' : Phone) (f : PhoneFrame) (w w' : World) (ht : s.target = none) (h : Screen.phoneFrame C A hash T dir (s, p) f w = (.ok (s', p'), w')) :
    s'.target = none ∧ (s'.key, p') = if f.tab.getD s.tab = .dashboard then keyFrame f (s.key, p) else (s.key, p) := by
  unfold Screen.phoneFrame at h
  simp only at h
  cases htab : f.tab.getD s.tab with
  | dashboard =>
    rw [htab] at h
    simp only [bind, Act.bind] at h
    have hr : Screen.receivePaste { s with tab := .dashboard } f.paste = { s with tab := .dashboard } := by
      unfold Screen.receivePaste
      cases f.paste with
      | none => rfl
      | some t => simp only [ht]
    rw [hr] at h
    rcases hm : Screen.phoneConfig C A hash T dir f { s with tab := .dashboard } w with ⟨o, w1⟩
    rw [hm] at h
    cases o with
    | ok s1 =>
      obtain ⟨h1, h2⟩ := keyKept_config _ f w s1 w1 hm
      simp only at h1 h2
      obtain ⟨k1, k2⟩ := phoneKey_spec f s1 p
      simp only [pure, Act.pure, Prod.mk.injEq, Out.ok.injEq] at h
      obtain ⟨he, _⟩ := h
      rw [he] at k1 k2
      rw [if_pos rfl]
      refine ⟨by rw [k2, h2, ht], by rw [← h1]; exact k1⟩
    | err e => cases h
    | crash => cases h
  | create =>
    rw [htab] at h
    simp only [bind, Act.bind] at h
    rcases hm : Screen.create C A hash T dir f.toFrame { s with tab := .create } w with ⟨o, w1⟩
    rw [hm] at h
    cases o with
    | ok s1 =>
      obtain ⟨h1, h2⟩ := keyKept_create _ f.toFrame w s1 w1 hm
      simp only at h1 h2
      cases h
      exact ⟨by rw [h2, ht], by rw [h1]; rfl⟩
    | err e => cases h
    | crash => cases h
  | execute =>
    rw [htab] at h
    simp only [bind, Act.bind] at h
    rcases hm : Screen.execute C A hash T dir f.toFrame { s with tab := .execute } w with ⟨o, w1⟩
    rw [hm] at h
    cases o with
    | ok s1 =>
      obtain ⟨h1, h2⟩ := keyKept_execute _ f.toFrame w s1 w1 hm
      simp only at h1 h2
      cases h
      exact ⟨by rw [h2, ht], by rw [h1]; rfl⟩
    | err e => cases h
    | crash => cases h

theorem startPhone_spec (p : Phone) (loads : Bool) (s : Screen) (w w' : World) (h : Screen.startPhone C dir p loads w = (.ok s, w')) : s.key = (if loads then p.stored else []) ∧ s.target = none := by
  unfold Screen.startPhone Screen.start at h
  simp only [bind, Act.bind] at h
  rcases hm : Ui.start C dir w with ⟨o, w1⟩
  rw [hm] at h
  cases o with
  | ok x => cases h; exact ⟨rfl, rfl⟩
  | err e => cases h
  | crash => cases h

theorem keyFrame_done (f : PhoneFrame) (k : List Char) (p : Phone) (hp : p.stored = k) (h1 : f.putTyped = .done) (h2 : f.putGenerated = .done) (h3 : f.putPasted = .done) :
    (keyFrame f (k, p)).2.stored = (keyFrame f (k, p)).1 := by
  unfold keyFrame
  rw [h1, h2, h3]
  cases f.keyEdit <;> cases f.generate <;> cases f.pasteKey <;> cases f.clipKey <;> first | rfl | exact hp

theorem run_target {p0 : Phone} {evs : List PhoneEv} {o : Option Screen} {p : Phone} (h : PhoneRun C A hash T dir p0 evs o p) : ∀ s, o = some s → s.target = none := by
  induction h with
  | nil => nofun
  | opens loads hr h ih => intro s hs; cases hs; exact (startPhone_spec _ _ _ _ _ h).2
  | shows f hr h ih => intro s hs; cases hs; exact (phoneFrame_spec _ _ _ _ f _ _ (ih _ rfl) h).1
  | flushed hr ih => exact ih
  | closes hr ih => nofun
  | dies found hr h ih => nofun

/-- What is stored is what is shown. -/
theorem run_stored {p0 : Phone} {evs : List PhoneEv} {o : Option Screen} {p : Phone} (h : PhoneRun C A hash T dir p0 evs o p) : ∀ s, o = some s → WentWell evs → p.stored = s.key := by
  induction h with
  | nil => nofun
  | opens loads hr h ih =>
    intro s hs hw
    cases hs
    have hw : loads = true := hw
    rw [(startPhone_spec _ _ _ _ _ h).1, if_pos hw]
  | shows f hr h ih =>
    intro s hs hw
    cases hs
    obtain ⟨w1, w2, w3, w4⟩ := hw
    have hi := ih _ rfl w4
    have hk := (phoneFrame_spec _ _ _ _ f _ _ (run_target hr _ rfl) h).2
    split at hk
    · have := keyFrame_done f _ _ hi w1 w2 w3
      rw [← hk] at this
      exact this
    · rw [(Prod.mk.inj hk).1, (Prod.mk.inj hk).2]
      exact hi
  | flushed hr ih => exact ih
  | closes hr ih => nofun
  | dies found hr h ih => nofun

end

/-- **C99**, proved part. On a phone: if reading the key at the start and storing each change went well since the application was opened, then after closing the application and opening it again (the key being read
again) it shows the same key; and the same if it died instead, provided what it stored had reached the disk. Missing: a failure is not shown to the user, and then the key is lost (`C99_unstored_key_is_lost`,
`C99_unread_key_is_overwritten`). -/
theorem C99_key_survives_partial (C : ListCodec) (A : Aead) (hash : List Char → U64) (T : TextCodec) (dir : Path) (p0 : Phone) (evs : List PhoneEv) (s : Screen) (p : Phone)
    (h : PhoneRun C A hash T dir p0 evs (some s) p) (hw : WentWell evs) :
    (∀ s' w w', Screen.startPhone C dir { p with late := [] } true w = (.ok s', w') →
      PhoneRun C A hash T dir p0 (.opens true :: .closes :: evs) (some s') { p with late := [] } ∧ s'.key = s.key) ∧
    (p.late = [] → ∀ found ∈ p.stored :: p.late, ∀ s' w w', Screen.startPhone C dir ⟨found, []⟩ true w = (.ok s', w') → s'.key = s.key) := by
  have hk := run_stored h s rfl hw
  refine ⟨?_, ?_⟩
  · intro s' w w' hs
    exact ⟨.opens true (.closes h) hs, by rw [(startPhone_spec _ _ _ _ _ hs).1, if_pos rfl]; exact hk⟩
  · intro hl found hf s' w w' hs
    rw [hl] at hf
    rw [(startPhone_spec _ _ _ _ _ hs).1, if_pos rfl, List.mem_singleton.1 hf]
    exact hk

/-- **C99.** A frame in which the user does not change the key changes neither the key shown nor what is stored, whatever else happens in it, and even if the key could not be read at the start. -/
theorem C99_untouched_key_stays (C : ListCodec) (A : Aead) (hash : List Char → U64) (T : TextCodec) (dir : Path) (p0 : Phone) (evs : List PhoneEv) (s s' : Screen) (p p' : Phone) (f : PhoneFrame) (w w' : World)
    (h : PhoneRun C A hash T dir p0 evs (some s) p) (hf : Screen.phoneFrame C A hash T dir (s, p) f w = (.ok (s', p'), w')) (hno : ¬ KeyChanged s f) : s'.key = s.key ∧ p' = p := by
  have hk := (phoneFrame_spec _ _ _ _ f _ _ (run_target h _ rfl) hf).2
  split at hk
  · rename_i ht
    have hno' : ¬ (f.keyEdit ≠ none ∨ f.generate ≠ none ∨ (f.pasteKey = true ∧ f.clipKey ≠ none)) := fun h => hno ⟨ht, h⟩
    have h1 : f.keyEdit = none := Decidable.byContradiction fun h => hno' (Or.inl h)
    have h2 : f.generate = none := Decidable.byContradiction fun h => hno' (Or.inr (Or.inl h))
    have h3 : ¬ (f.pasteKey = true ∧ f.clipKey ≠ none) := fun h => hno' (Or.inr (Or.inr h))
    unfold keyFrame at hk
    rw [h1, h2] at hk
    simp only at hk
    cases hp : f.pasteKey <;> cases hc : f.clipKey <;> rw [hp, hc] at hk h3
    · exact Prod.mk.inj hk
    · exact Prod.mk.inj hk
    · exact Prod.mk.inj hk
    · exact absurd ⟨rfl, nofun⟩ h3
  · exact Prod.mk.inj hk

/-- **C99.** The phone never stores a key for the clipboard or a former one: what a frame stores is what it leaves in the field, if the last attempt in it worked. -/
theorem C99_stores_what_it_shows (C : ListCodec) (A : Aead) (hash : List Char → U64) (T : TextCodec) (dir : Path) (p0 : Phone) (evs : List PhoneEv) (s s' : Screen) (p p' : Phone) (f : PhoneFrame) (w w' : World)
    (h : PhoneRun C A hash T dir p0 evs (some s) p) (hf : Screen.phoneFrame C A hash T dir (s, p) f w = (.ok (s', p'), w')) (hch : KeyChanged s f)
    (hd : f.putTyped = .done ∧ f.putGenerated = .done ∧ f.putPasted = .done) : p'.stored = s'.key := by
  have hk := (phoneFrame_spec _ _ _ _ f _ _ (run_target h _ rfl) hf).2
  obtain ⟨ht, hch⟩ := hch
  rw [if_pos ht] at hk
  obtain ⟨h1, h2, h3⟩ := hd
  have : (keyFrame f (s.key, p)).2.stored = (keyFrame f (s.key, p)).1 := by
    unfold keyFrame
    rw [h1, h2, h3]
    rcases hch with hch | hch | ⟨hch, hc⟩
    · cases hq : f.keyEdit with
      | none => exact absurd hq hch
      | some g => cases f.generate <;> cases f.pasteKey <;> cases f.clipKey <;> rfl
    · cases hq : f.generate with
      | none => exact absurd hq hch
      | some g => cases f.keyEdit <;> cases f.pasteKey <;> cases f.clipKey <;> rfl
    · cases hq : f.clipKey with
      | none => exact absurd hq hc
      | some g => rw [hch]
                  cases f.generate <;> cases f.keyEdit <;> rfl
  rw [← hk] at this
  exact this

/-- **C99** is false of the code, 1: a key is generated, storing it fails; the field shows it and commands are sent with it, but after the next start it is gone, and another key, or none, is there. -/
theorem C99_unstored_key_is_lost (C : ListCodec) (A : Aead) (hash : List Char → U64) (T : TextCodec) (dir : Path) (p0 : Phone) (k : List Char) (hne : k ≠ p0.stored) (s s' : Screen) (w w1 w2 w3 : World)
    (h : Screen.startPhone C dir p0 true w = (.ok s, w1)) (h' : Screen.startPhone C dir { p0 with late := [] } true w2 = (.ok s', w3)) :
    ∃ s1, PhoneRun C A hash T dir p0 [.shows { generate := some k, putGenerated := .failed false }, .opens true] (some s1) p0 ∧ s1.key = k ∧
      PhoneRun C A hash T dir p0 [.opens true, .closes, .shows { generate := some k, putGenerated := .failed false }, .opens true] (some s') { p0 with late := [] } ∧ s'.key ≠ k := by
  have hs : s.tab = .dashboard ∧ s.target = none := by
    unfold Screen.startPhone Screen.start at h
    simp only [bind, Act.bind] at h
    rcases hm : Ui.start C dir w with ⟨o, w1⟩
    rw [hm] at h
    cases o with
    | ok x => cases h; exact ⟨rfl, rfl⟩
    | err e => cases h
    | crash => cases h
  obtain ⟨u, tab, key, sk, target, form⟩ := s
  obtain ⟨ht, hg⟩ := hs
  simp only at ht hg
  subst ht hg
  have r1 : PhoneRun C A hash T dir p0 [.opens true] (some _) p0 := .opens true .nil h
  have r2 : PhoneRun C A hash T dir p0 [.shows { generate := some k, putGenerated := .failed false }, .opens true] (some ⟨u, .dashboard, k, sk, none, form⟩) p0 := .shows (w := w) (w' := w) _ r1 rfl
  refine ⟨_, r2, rfl, .opens true (.closes r2) h', ?_⟩
  rw [(startPhone_spec _ _ _ _ _ h').1, if_pos rfl]
  exact fun h => hne h.symm

/-- **C99** is false of the code, 2: reading the stored key fails at the start; the field is empty as if there were none, and the first character typed into it replaces the stored key for good. -/
theorem C99_unread_key_is_overwritten (C : ListCodec) (A : Aead) (hash : List Char → U64) (T : TextCodec) (dir : Path) (p0 : Phone) (c : Char) (s : Screen) (w w1 : World)
    (h : Screen.startPhone C dir p0 false w = (.ok s, w1)) :
    s.key = [] ∧ ∃ s1, PhoneRun C A hash T dir p0 [.flushed, .shows { keyEdit := some (fun t => t ++ [c]) }, .opens false] (some s1) ⟨[c], []⟩ := by
  have hs : s.tab = .dashboard ∧ s.target = none ∧ s.key = [] := by
    unfold Screen.startPhone Screen.start at h
    simp only [bind, Act.bind] at h
    rcases hm : Ui.start C dir w with ⟨o, w1⟩
    rw [hm] at h
    cases o with
    | ok x => cases h; exact ⟨rfl, rfl, rfl⟩
    | err e => cases h
    | crash => cases h
  obtain ⟨u, tab, key, sk, target, form⟩ := s
  obtain ⟨ht, hg, hk⟩ := hs
  simp only at ht hg hk
  subst ht hg hk
  have r2 : PhoneRun C A hash T dir p0 [.shows { keyEdit := some (fun t => t ++ [c]) }, .opens false] (some ⟨u, .dashboard, [c], sk, none, form⟩) (p0.put [c] .done) :=
    .shows (w := w) (w' := w) _ (.opens false .nil h) rfl
  exact ⟨rfl, _, .flushed r2⟩

/-- C99 is not vacuous: the key is pasted, typed on, a paste fails, a command is added on another tab; the application is closed and opened. -/
example : ∃ s s' p w w', PhoneRun toyListCodec toyAead (fun n => BitVec.ofNat 64 n.length) toyTextCodec "/c".toList ⟨"old".toList, []⟩
      [.shows { pasteKey := true, putPasted := .done }, .shows { tab := some .execute }, .shows { tab := some .dashboard, keyEdit := some (fun t => t ++ ['x']), toggle := true },
        .shows { pasteKey := true, clipKey := some "new".toList }, .opens true] (some s) p ∧ p = ⟨"newx".toList, ["new".toList, "old".toList]⟩ ∧ s.key = "newx".toList ∧
      Screen.startPhone toyListCodec "/c".toList { p with late := [] } true w = (.ok s', w') := by
  have hm : ∃ x w2, Ui.start toyListCodec "/c".toList (exUiWorld []) = (.ok x, w2) := ⟨_, _, rfl⟩
  obtain ⟨⟨u, ob⟩, w2, hm⟩ := hm
  have start (p : Phone) : ∃ form, Screen.startPhone toyListCodec "/c".toList p true (exUiWorld []) = (.ok ⟨u, .dashboard, p.stored, false, none, form⟩, w2) := by
    unfold Screen.startPhone Screen.start
    simp only [bind, Act.bind]
    rw [hm]
    exact ⟨_, rfl⟩
  obtain ⟨f1, h⟩ := start ⟨"old".toList, []⟩
  obtain ⟨f2, h'⟩ := start { (⟨"newx".toList, ["new".toList, "old".toList]⟩ : Phone) with late := [] }
  have r1 := PhoneRun.opens (A := toyAead) (hash := fun n => BitVec.ofNat 64 n.length) (T := toyTextCodec) true .nil h
  have r2 := PhoneRun.shows (w := w2) { pasteKey := true, clipKey := some "new".toList } r1 rfl
  have r3 := PhoneRun.shows (w := w2) { tab := some .dashboard, keyEdit := some (fun t => t ++ ['x']), toggle := true } r2 rfl
  have r4 := PhoneRun.shows (w := w2) { tab := some .execute } r3 rfl
  have r5 := PhoneRun.shows (w := w2) { pasteKey := true, putPasted := .done } r4 rfl
  exact ⟨_, _, _, _, _, r5, rfl, rfl, h'⟩

/-! ## C100: the keyboard -/

theorem keyboard_step (k : Keyboard) (e : KeyEv) (es : List KeyEv) (h1 : k.hidden = true → k.visible = false) (h2 : k.hides + (!k.hidden).toNat ≤ focused es + failedHides es) :
    ((k.step e).hidden = true → (k.step e).visible = false) ∧ (k.step e).hides + (!(k.step e).hidden).toNat ≤ focused (e :: es) + failedHides (e :: es) := by
  obtain ⟨v, h, sh, hi⟩ := k
  simp only at h1 h2
  cases e with
  | dismiss => exact ⟨fun _ => rfl, h2⟩
  | frame want works =>
    cases want <;> cases works <;> cases h <;> simp [Keyboard.step, Keyboard.ensureVisible, focused, failedHides] at h1 h2 ⊢ <;> first | exact ⟨h1, by omega⟩ | omega | exact ⟨by assumption, by omega⟩

theorem keyboard_inv (es : List KeyEv) : ((keyboardAfter es).hidden = true → (keyboardAfter es).visible = false) ∧
    (keyboardAfter es).hides + (!(keyboardAfter es).hidden).toNat ≤ focused es + failedHides es := by
  induction es with
  | nil => exact ⟨fun _ => rfl, by simp [keyboardAfter, Keyboard.start, focused, failedHides]⟩
  | cons e es ih => exact keyboard_step _ e es ih.1 ih.2

/-- **C100, keyboard.** After a frame in which the call works, the keyboard is on the screen if a text field has the focus, and is not if none has; whatever the user and failing calls did before. And it is asked to go
away at most once per frame in which it was shown, plus once for each time that failed: not in every frame. -/
theorem C100_keyboard_follows_focus (es : List KeyEv) (want : Bool) :
    (keyboardAfter (.frame want true :: es)).visible = want ∧ (keyboardAfter es).hides ≤ focused es + failedHides es := by
  obtain ⟨h1, h2⟩ := keyboard_inv es
  refine ⟨?_, by omega⟩
  simp only [keyboardAfter, Keyboard.step, Keyboard.ensureVisible]
  cases want with
  | true => rfl
  | false =>
    cases hh : (keyboardAfter es).hidden with
    | true => simpa [hh] using h1 hh
    | false => rfl

/-- Without focus and with no failure the system is called at most once more, however many frames follow. -/
theorem C100_keyboard_rests (es : List KeyEv) (n : Nat) :
    (keyboardAfter (List.replicate n (.frame false true) ++ es)).hides ≤ (keyboardAfter es).hides + 1 ∧ (keyboardAfter (List.replicate n (.frame false true) ++ es)).shows = (keyboardAfter es).shows := by
  have h : ((keyboardAfter (List.replicate n (.frame false true) ++ es)).hides = (keyboardAfter es).hides ∨
      (keyboardAfter (List.replicate n (.frame false true) ++ es)).hides = (keyboardAfter es).hides + 1 ∧ (keyboardAfter (List.replicate n (.frame false true) ++ es)).hidden = true) ∧
      (keyboardAfter (List.replicate n (.frame false true) ++ es)).shows = (keyboardAfter es).shows := by
    induction n with
    | zero => exact ⟨.inl rfl, rfl⟩
    | succ n ih =>
      simp only [List.replicate_succ, List.cons_append, keyboardAfter]
      obtain ⟨h1, h2⟩ := ih
      generalize keyboardAfter (List.replicate n (.frame false true) ++ es) = k at h1 h2 ⊢
      obtain ⟨v, h, sh, hi⟩ := k
      simp only at h1 h2
      cases h <;> simp [Keyboard.step, Keyboard.ensureVisible] at h1 h2 ⊢ <;> omega
  obtain ⟨h1, h2⟩ := h
  exact ⟨by omega, h2⟩

example : (keyboardAfter [.frame false true, .frame false true, .frame false false, .dismiss, .frame true true, .frame true true]) = ⟨false, true, 2, 2⟩ := rfl

/-! ## C100: the update -/

/-- **C100, update.** "Update Application" on a phone opens an address only if it is that of the first file whose name ends in `.apk` of the newest release that is not a pre-release; and it reports success only if there is
such a file. -/
theorem C100_update_opens (releases : Option (List Release)) (prepares starts : Bool) :
    (∀ url, (updateAndroid releases prepares starts).1 = some url → ∃ rs pre r post as a bs, releases = some rs ∧ rs = pre ++ r :: post ∧ (∀ x ∈ pre, x.prerelease = true) ∧ r.prerelease = false ∧
      r.assets = as ++ a :: bs ∧ (∀ x ∈ as, ¬ ".apk".toList <:+ x.name) ∧ ".apk".toList <:+ a.name ∧ a.url = url) ∧
    ((updateAndroid releases prepares starts).2 = .ok () → prepares = true ∧ ∃ rs, releases = some rs ∧ ∃ r ∈ rs, r.prerelease = false ∧ ∃ a ∈ r.assets, ".apk".toList <:+ a.name) := by
  unfold updateAndroid selectRelease
  cases releases with
  | none => exact ⟨nofun, nofun⟩
  | some rs =>
    simp only
    cases hf : rs.find? (fun d => !d.prerelease) with
    | none => exact ⟨nofun, nofun⟩
    | some r =>
      simp only
      obtain ⟨hr, pre, post, hrs, hpre⟩ := List.find?_eq_some_iff_append.1 hf
      simp only [Bool.not_eq_eq_eq_not, Bool.not_true, Bool.not_false] at hr hpre
      cases ha : r.assets.find? (fun a => ".apk".toList.isSuffixOf a.name) with
      | none => exact ⟨nofun, nofun⟩
      | some a =>
        simp only
        obtain ⟨hn, as, bs, has, hpas⟩ := List.find?_eq_some_iff_append.1 ha
        have hn' : ".apk".toList <:+ a.name := List.isSuffixOf_iff_suffix.1 hn
        refine ⟨?_, ?_⟩
        · intro url hu
          cases prepares with
          | false => simp at hu
          | true =>
            simp only [if_true] at hu
            cases starts with
            | false => simp at hu
            | true =>
              simp only [if_true, Option.some.injEq] at hu
              refine ⟨rs, pre, r, post, as, a, bs, rfl, hrs, ?_, hr, has, ?_, hn', hu⟩
              · intro x hx
                simpa using hpre x hx
              · intro x hx hs
                have := hpas x hx
                rw [List.isSuffixOf_iff_suffix.2 hs] at this
                cases this
        · intro hok
          cases prepares with
          | false => simp at hok
          | true => exact ⟨rfl, rs, rfl, r, by rw [hrs]; simp, hr, a, by rw [has]; simp, hn'⟩

/-- **C100, update.** It reports success although nothing was opened, and it does not look at the version in use: the release may be the one installed, or an older one. -/
theorem C100_update_reports_success (releases : Option (List Release)) (starts : Bool) (h : (updateAndroid releases true true).2 = .ok ()) :
    (updateAndroid releases true starts).2 = .ok () ∧ (updateAndroid releases true false).1 = none := by
  unfold updateAndroid at h ⊢
  generalize selectRelease releases none = x at h ⊢
  cases x with
  | error e => cases h
  | ok r =>
    simp only at h ⊢
    generalize r.assets.find? (fun a => ".apk".toList.isSuffixOf a.name) = y at h ⊢
    cases y with
    | none => cases h
    | some a => exact ⟨rfl, rfl⟩

example : updateAndroid (some [⟨"v2".toList, [], true⟩, ⟨"v1".toList, [⟨"client".toList, "u0".toList⟩, ⟨"ruroco.apk".toList, "u1".toList⟩, ⟨"b.apk".toList, "u2".toList⟩], false⟩]) true true = (some "u1".toList, .ok ()) := by
  decide +kernel

end Ruroco
