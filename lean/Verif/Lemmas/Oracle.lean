import Verif.Lemmas.SysOk

/-! Actions only consume the outcomes of system calls: those left are a suffix of those available before. -/

namespace Ruroco

/-- `m` only consumes outcomes of system calls. -/
def Draws (m : Act α) : Prop := ∀ w, (m w).2.oracle <:+ w.oracle

namespace Draws

theorem pure (a : α) : Draws (Pure.pure a : Act α) := fun _ => List.suffix_refl _

theorem throw (e : Err) : Draws (Act.throw e : Act α) := fun _ => List.suffix_refl _

theorem bind {m : Act α} {f : α → Act β} (hm : Draws m) (hf : ∀ a, Draws (f a)) : Draws (m >>= f) := by
  intro w
  show (Act.bind m f w).2.oracle <:+ w.oracle
  unfold Act.bind
  have h1 := hm w
  rcases h : m w with ⟨o, w'⟩
  rw [h] at h1
  cases o with
  | ok a => exact (hf a w').trans h1
  | err e => exact h1
  | crash => exact h1

theorem attempt {m : Act α} (hm : Draws m) : Draws m.attempt := by
  intro w
  unfold Act.attempt
  have h1 := hm w
  rcases h : m w with ⟨o, w'⟩
  rw [h] at h1
  cases o <;> exact h1

theorem ofExcept (x : Except Err α) : Draws (Act.ofExcept x) := by
  cases x with
  | ok a => exact pure a
  | error e => exact throw e

theorem atomicCall {ev : Event} {eff : World → World} (h : ∀ w, (eff w).oracle = w.oracle) : Draws (Ruroco.atomicCall ev eff) := by
  intro w
  unfold Ruroco.atomicCall syscall
  rcases hw : w.oracle with _ | ⟨c, o⟩
  · simp only [h]; rw [← hw]; exact List.suffix_refl _
  · cases c with
    | ok => simp only [h]; exact List.suffix_cons _ _
    | err k => exact List.suffix_cons _ _
    | crash k =>
      cases k with
      | zero => exact List.suffix_cons _ _
      | succ k => simp only [if_neg (Nat.succ_ne_zero k), h]; exact List.suffix_cons _ _

theorem nowNanos : Draws Ruroco.nowNanos := by
  intro w
  unfold Ruroco.nowNanos
  rcases w.clock with _ | ⟨t, c⟩
  · exact List.suffix_refl _
  · cases t <;> exact List.suffix_refl _

theorem peek (p : Path) : Draws (Ruroco.peek p) := fun _ => List.suffix_refl _

theorem note (e : Event) : Draws (Ruroco.note e) := fun _ => List.suffix_refl _

theorem openTrunc (p : Path) : Draws (Ruroco.openTrunc p) := atomicCall (fun _ => rfl)

theorem writeAll (p : Path) (bs : List Byte) : Draws (Ruroco.writeAll p bs) := by
  intro w
  unfold Ruroco.writeAll syscall
  rcases hw : w.oracle with _ | ⟨c, o⟩
  · rw [(append_oracle _ _ _).1]; rw [← hw]; exact List.suffix_refl _
  · cases c <;> (simp only; rw [(append_oracle _ _ _).1]; exact List.suffix_cons _ _)

theorem fsync (p : Path) : Draws (Ruroco.fsync p) := by
  apply atomicCall
  intro w
  cases w.fs p <;> rfl

theorem rename (a b : Path) : Draws (Ruroco.rename a b) := by
  apply bind (peek a)
  intro f
  cases f with
  | none => exact throw _
  | some f => exact atomicCall (fun _ => rfl)

theorem fsyncDir (p : Path) : Draws (Ruroco.fsyncDir p) := by
  unfold Ruroco.fsyncDir
  split
  · exact note _
  · refine bind (attempt (atomicCall ?_)) ?_
    · intro w; rfl
    · intro r
      cases r with
      | ok _ => exact pure _
      | error _ => exact note _

theorem writeAtomic (p : Path) (bs : List Byte) : Draws (Ruroco.writeAtomicWithMode p bs none) := by
  apply bind nowNanos
  intro n
  apply bind (openTrunc _)
  intro _
  apply bind (writeAll _ _)
  intro _
  apply bind (fsync _)
  intro _
  exact bind (rename _ _) (fun _ => fsyncDir _)

end Draws

end Ruroco
