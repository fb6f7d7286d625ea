import Verif.Lemmas.SysOk

/-! Actions only consume clock readings: the readings left are a suffix of those available before. -/

namespace Ruroco

/-- `m` only consumes clock readings. -/
def Ticks (m : Act α) : Prop := ∀ w, (m w).2.clock <:+ w.clock

namespace Ticks

theorem pure (a : α) : Ticks (Pure.pure a : Act α) := fun _ => List.suffix_refl _

theorem throw (e : Err) : Ticks (Act.throw e : Act α) := fun _ => List.suffix_refl _

theorem bind {m : Act α} {f : α → Act β} (hm : Ticks m) (hf : ∀ a, Ticks (f a)) : Ticks (m >>= f) := by
  intro w
  show (Act.bind m f w).2.clock <:+ w.clock
  unfold Act.bind
  have h1 := hm w
  rcases h : m w with ⟨o, w'⟩
  rw [h] at h1
  cases o with
  | ok a => exact (hf a w').trans h1
  | err e => exact h1
  | crash => exact h1

theorem attempt {m : Act α} (hm : Ticks m) : Ticks m.attempt := by
  intro w
  unfold Act.attempt
  have h1 := hm w
  rcases h : m w with ⟨o, w'⟩
  rw [h] at h1
  cases o <;> exact h1

theorem ofExcept (x : Except Err α) : Ticks (Act.ofExcept x) := by
  cases x with
  | ok a => exact pure a
  | error e => exact throw e

theorem atomicCall {ev : Event} {eff : World → World} (h : ∀ w, (eff w).clock = w.clock) : Ticks (Ruroco.atomicCall ev eff) := by
  intro w
  have : wp (Ruroco.atomicCall ev eff) w (fun _ w' => w'.clock = w.clock) := by
    apply wp_atomicCall <;> intro o
    · rw [h]
    · rfl
    · rfl
    · rw [h]
  rw [show ((Ruroco.atomicCall ev eff) w).2.clock = w.clock from this]
  exact List.suffix_refl _

theorem nowNanos : Ticks Ruroco.nowNanos := by
  intro w
  unfold Ruroco.nowNanos
  rcases h : w.clock with _ | ⟨t, c⟩
  · simp [h]
  · cases t <;> exact List.suffix_cons _ _

theorem peek (p : Path) : Ticks (Ruroco.peek p) := fun _ => List.suffix_refl _

theorem note (e : Event) : Ticks (Ruroco.note e) := fun _ => List.suffix_refl _

theorem openTrunc (p : Path) : Ticks (Ruroco.openTrunc p) := atomicCall (fun _ => rfl)

theorem writeAll (p : Path) (bs : List Byte) : Ticks (Ruroco.writeAll p bs) := by
  intro w
  unfold Ruroco.writeAll syscall
  rcases w.oracle with _ | ⟨c, o⟩
  · rw [(append_oracle _ _ _).2]; exact List.suffix_refl _
  · cases c <;> (simp only; rw [(append_oracle _ _ _).2]; exact List.suffix_refl _)

theorem fsync (p : Path) : Ticks (Ruroco.fsync p) := by
  apply atomicCall
  intro w
  cases w.fs p <;> rfl

theorem chmod (p : Path) (m : Nat) : Ticks (Ruroco.chmod p m) := by
  apply bind (peek p)
  intro f
  cases f with
  | none => exact throw _
  | some f => exact atomicCall (fun _ => rfl)

theorem stat (p : Path) : Ticks (Ruroco.stat p) := by
  apply bind (atomicCall (fun _ => rfl))
  intro _
  apply bind (peek p)
  intro f
  cases f with
  | none => exact throw _
  | some f => exact pure _

theorem rename (a b : Path) : Ticks (Ruroco.rename a b) := by
  apply bind (peek a)
  intro f
  cases f with
  | none => exact throw _
  | some f => exact atomicCall (fun _ => rfl)

theorem fsyncDir (p : Path) : Ticks (Ruroco.fsyncDir p) := by
  unfold Ruroco.fsyncDir
  split
  · exact note _
  · refine bind (attempt (atomicCall ?_)) ?_
    · intro w; rfl
    · intro r
      cases r with
      | ok _ => exact pure _
      | error _ => exact note _

theorem pathExists (p : Path) : Ticks (Ruroco.pathExists p) := by
  apply bind (attempt (atomicCall (fun _ => rfl)))
  intro r
  cases r with
  | ok _ => exact bind (peek p) (fun _ => pure _)
  | error _ => exact bind (note _) (fun _ => pure _)

theorem readFile (p : Path) : Ticks (Ruroco.readFile p) := by
  apply bind (atomicCall (fun _ => rfl))
  intro _
  apply bind (peek p)
  intro f
  cases f with
  | none => exact throw _
  | some f => exact pure _

theorem writeAtomicWithMode (p : Path) (bs : List Byte) (mode : Option Nat) : Ticks (Ruroco.writeAtomicWithMode p bs mode) := by
  apply bind nowNanos
  intro n
  apply bind (openTrunc _)
  intro _
  apply bind (writeAll _ _)
  intro _
  apply bind (fsync _)
  intro _
  have tail : Ticks (do Ruroco.rename (tmpPath p n) p; Ruroco.fsyncDir p) := bind (rename _ _) (fun _ => fsyncDir _)
  cases mode with
  | none => exact tail
  | some m => exact bind (stat _) (fun _ => bind (chmod _ _) (fun _ => tail))

end Ticks

end Ruroco
