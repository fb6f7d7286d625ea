import Verif.Lemmas.Sys
import Verif.Spec.Terms.SysOk

/-! When every system call works, writing and saving succeed. -/

namespace Ruroco

theorem wp_atomicCall_ok (ev : Event) (eff : World → World) (w : World) (h : AllOk w) (Q : Out Unit → World → Prop)
    (hok : ∀ o, (∀ c ∈ o, c = Choice.ok) → Q (.ok ()) (eff { w with log := w.log ++ [ev], oracle := o })) :
    wp (atomicCall ev eff) w Q := by
  unfold wp atomicCall syscall
  rcases hw : w.oracle with _ | ⟨c, o⟩
  · exact hok [] (by simp)
  · have hc : c = .ok := h c (by rw [hw]; simp)
    subst hc
    exact hok o (fun c hc => h c (by rw [hw]; simp [hc]))

theorem wp_writeAll_ok (p : Path) (bs : List Byte) (w : World) (h : AllOk w) (Q : Out Unit → World → Prop)
    (hok : ∀ o, (∀ c ∈ o, c = Choice.ok) →
      Q (.ok ()) (World.append { w with log := w.log ++ [.file .write p], oracle := o } p bs)) :
    wp (writeAll p bs) w Q := by
  unfold wp writeAll syscall
  rcases hw : w.oracle with _ | ⟨c, o⟩
  · exact hok [] (by simp)
  · have hc : c = .ok := h c (by rw [hw]; simp)
    subst hc
    exact hok o (fun c hc => h c (by rw [hw]; simp [hc]))

theorem append_oracle (w : World) (p : Path) (bs : List Byte) :
    (w.append p bs).oracle = w.oracle ∧ (w.append p bs).clock = w.clock := by
  unfold World.append
  split <;> exact ⟨rfl, rfl⟩

theorem wp_nowNanos_some (w : World) (t : U128) (c : List (Option U128)) (h : w.clock = some t :: c)
    (Q : Out U128 → World → Prop) : wp nowNanos w Q ↔ Q (.ok t) { w with clock := c } := by
  unfold wp nowNanos
  rw [h]

/-- Result of a working call: success, later calls still work, clock untouched, file present. -/
def WorksOn (p : Path) (w : World) (o : Out Unit) (w' : World) : Prop :=
  o = .ok () ∧ AllOk w' ∧ w'.clock = w.clock ∧ ∃ f, w'.fs p = some f

theorem openTrunc_ok (p : Path) (w : World) (h : AllOk w) : wp (openTrunc p) w (WorksOn p w) := by
  unfold openTrunc
  apply wp_atomicCall_ok _ _ _ h
  intro o ho
  exact ⟨rfl, ho, rfl, ⟨_, if_pos rfl⟩⟩

theorem writeAll_ok (p : Path) (bs : List Byte) (w : World) (h : AllOk w) (hf : ∃ f, w.fs p = some f) :
    wp (writeAll p bs) w (WorksOn p w) := by
  obtain ⟨f, hf⟩ := hf
  apply wp_writeAll_ok _ _ _ h
  intro o ho
  have e := append_oracle ({ w with log := w.log ++ [.file .write p], oracle := o }) p bs
  refine ⟨rfl, fun c hc => ?_, e.2, ?_⟩
  · rw [e.1] at hc; exact ho c hc
  · simp only [World.append, hf]
    exact ⟨_, if_pos rfl⟩

theorem fsync_ok (p : Path) (w : World) (h : AllOk w) (hf : ∃ f, w.fs p = some f) : wp (fsync p) w (WorksOn p w) := by
  obtain ⟨f, hf⟩ := hf
  unfold fsync
  apply wp_atomicCall_ok _ _ _ h
  intro o ho
  simp only [hf]
  exact ⟨rfl, ho, rfl, ⟨_, if_pos rfl⟩⟩

theorem chmod_ok (p : Path) (m : Nat) (w : World) (h : AllOk w) (hf : ∃ f, w.fs p = some f) : wp (chmod p m) w (WorksOn p w) := by
  obtain ⟨f, hf⟩ := hf
  unfold chmod
  rw [wp_bind, wp_peek]
  simp only [hf]
  apply wp_atomicCall_ok _ _ _ h
  intro o ho
  exact ⟨rfl, ho, rfl, ⟨_, if_pos rfl⟩⟩

theorem stat_ok (p : Path) (w : World) (h : AllOk w) (hf : ∃ f, w.fs p = some f) :
    wp (stat p) w (fun o w' => (∃ f, o = .ok f) ∧ AllOk w' ∧ w'.clock = w.clock ∧ ∃ f, w'.fs p = some f) := by
  obtain ⟨f, hf⟩ := hf
  unfold stat
  rw [wp_bind]
  apply wp_atomicCall_ok _ _ _ h
  intro o ho
  simp only [id]
  rw [wp_bind, wp_peek]
  simp only [hf, wp_pure]
  exact ⟨⟨_, rfl⟩, ho, trivial, ⟨f, rfl⟩⟩

theorem rename_ok (a b : Path) (hab : a ≠ b) (w : World) (h : AllOk w) (hf : ∃ f, w.fs a = some f) : wp (rename a b) w (WorksOn b w) := by
  obtain ⟨f, hf⟩ := hf
  rw [wp_rename_some _ _ _ _ hf]
  apply wp_atomicCall_ok _ _ _ h
  intro o ho
  exact ⟨rfl, ho, rfl, ⟨f, by simp [World.setEntry, Ne.symm hab]⟩⟩

theorem fsyncDir_ok (p : Path) (w : World) (h : AllOk w) (hf : ∃ f, w.fs p = some f) : wp (fsyncDir p) w (WorksOn p w) := by
  unfold fsyncDir
  split
  · rw [wp_note]
    exact ⟨rfl, h, rfl, hf⟩
  · rw [wp_bind, wp_attempt]
    apply wp_atomicCall_ok _ _ _ h
    intro o4 h4
    simp only [wp_pure]
    exact ⟨rfl, h4, rfl, hf⟩

theorem worksOn_bind {p : Path} {m : Act Unit} {f : Unit → Act β} {w : World} {Q : Out β → World → Prop} (h : wp m w (WorksOn p w))
    (hf : ∀ w', AllOk w' → w'.clock = w.clock → (∃ f, w'.fs p = some f) → wp (f ()) w' Q) : wp (m >>= f) w Q := by
  rw [wp_bind]
  refine wp_mono h ?_
  rintro o w' ⟨rfl, h1, h2, h3⟩
  exact hf w' h1 h2 h3

theorem writeAtomicWithMode_ok (path : Path) (contents : List Byte) (mode : Option Nat) (w : World) (h : AllOk w) (t : U128)
    (c : List (Option U128)) (hc : w.clock = some t :: c) :
    wp (writeAtomicWithMode path contents mode) w (fun o w' => o = .ok () ∧ AllOk w' ∧ w'.clock = c) := by
  unfold writeAtomicWithMode
  rw [wp_bind, wp_nowNanos_some _ _ _ hc]
  simp only
  refine worksOn_bind (openTrunc_ok _ _ (by exact h)) fun w1 a1 c1 f1 => ?_
  refine worksOn_bind (writeAll_ok _ _ _ a1 f1) fun w2 a2 c2 f2 => ?_
  refine worksOn_bind (fsync_ok _ _ a2 f2) fun w3 a3 c3 f3 => ?_
  have c3' : w3.clock = c := by rw [c3, c2, c1]
  have key : ∀ (w3 : World), AllOk w3 → w3.clock = c → (∃ f, w3.fs (tmpPath path t) = some f) →
      wp (do rename (tmpPath path t) path; fsyncDir path) w3 (fun o w' => o = .ok () ∧ AllOk w' ∧ w'.clock = c) := by
    intro w3 ha hcl3 hf
    refine worksOn_bind (rename_ok _ _ (tmpPath_ne _ _) _ ha hf) fun w4 a4 c4 f4 => ?_
    refine wp_mono (fsyncDir_ok _ _ a4 f4) ?_
    rintro o w5 ⟨ho, a5, c5, _⟩
    exact ⟨ho, a5, by rw [c5, c4, hcl3]⟩
  cases mode with
  | none => exact key w3 a3 c3' f3
  | some m =>
    simp only
    rw [wp_bind]
    refine wp_mono (stat_ok _ _ a3 f3) ?_
    rintro o w4 ⟨⟨f, rfl⟩, a4, c4, f4⟩
    simp only
    refine worksOn_bind (chmod_ok _ _ _ a4 f4) fun w5 a5 c5 f5 => ?_
    exact key w5 a5 (by rw [c5, c4, c3']) f5

end Ruroco
