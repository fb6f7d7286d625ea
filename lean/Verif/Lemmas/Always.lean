import Verif.Lemmas.Sys
import Verif.Spec.Terms.Always

/-! Relations between the world before and after an action that hold at every outcome. -/

namespace Ruroco

/-- `R` relates the world before `m` to the world after it, whatever the outcome. -/
def Always (R : World → World → Prop) (m : Act α) : Prop := ∀ w, R w (m w).2

/-- Reflexive and transitive. -/
structure Pre (R : World → World → Prop) : Prop where
  refl : ∀ w, R w w
  trans : ∀ {a b c}, R a b → R b c → R a c

namespace Always

variable {R : World → World → Prop}

theorem pure (hR : Pre R) (a : α) : Always R (Pure.pure a : Act α) := fun w => hR.refl w

theorem throw (hR : Pre R) (e : Err) : Always R (Act.throw e : Act α) := fun w => hR.refl w

theorem peek (hR : Pre R) (p : Path) : Always R (Ruroco.peek p) := fun w => hR.refl w

theorem bind (hR : Pre R) {m : Act α} {f : α → Act β} (hm : Always R m) (hf : ∀ a, Always R (f a)) : Always R (m >>= f) := by
  intro w
  show R w (Act.bind m f w).2
  unfold Act.bind
  have h1 := hm w
  rcases h : m w with ⟨o, w'⟩
  rw [h] at h1
  cases o with
  | ok a => exact hR.trans h1 (hf a w')
  | err e => exact h1
  | crash => exact h1

theorem attempt {m : Act α} (hm : Always R m) : Always R m.attempt := by
  intro w
  unfold Act.attempt
  have h1 := hm w
  rcases h : m w with ⟨o, w'⟩
  rw [h] at h1
  cases o <;> exact h1

theorem ofExcept (hR : Pre R) (x : Except Err α) : Always R (Act.ofExcept x) := by
  cases x with
  | ok a => exact pure hR a
  | error e => exact throw hR e

theorem atomicCall {ev : Event} {eff : World → World} (h : ∀ w o, R w { w with log := w.log ++ [ev], oracle := o })
    (he : ∀ w o, R w (eff { w with log := w.log ++ [ev], oracle := o })) : Always R (Ruroco.atomicCall ev eff) := by
  intro w
  exact wp_atomicCall (Q := fun _ w' => R w w') ev eff w (fun o => he w o) (fun o => h w o) (fun o => h w o) (fun o => he w o)

theorem nowNanos (hR : ∀ w c, R w { w with clock := c }) : Always R Ruroco.nowNanos := by
  intro w
  exact wp_nowNanos w (fun _ w' => R w w') (fun _ c _ => hR w c) (fun c => hR w c)

theorem note {ev : Event} (h : ∀ w, R w { w with log := w.log ++ [ev] }) : Always R (Ruroco.note ev) := fun w => h w

end Always

theorem logs_pre (P : Event → Prop) : Pre (Logs P) where
  refl w := ⟨[], by simp, nofun⟩
  trans := by
    rintro a b c ⟨l, h1, h2⟩ ⟨l', h3, h4⟩
    refine ⟨l ++ l', by rw [h3, h1, List.append_assoc], fun e he => ?_⟩
    rcases List.mem_append.1 he with he | he
    · exact h2 e he
    · exact h4 e he

theorem Logs.drop {P : Event → Prop} {w w' : World} (h : Logs P w w') : ∀ e ∈ w'.log.drop w.log.length, P e := by
  obtain ⟨l, h1, h2⟩ := h
  rw [h1, List.drop_left]
  exact h2

theorem logs_call {P : Event → Prop} {ev : Event} {eff : World → World} (hP : P ev) (he : ∀ w, (eff w).log = w.log) :
    Always (Logs P) (atomicCall ev eff) :=
  Always.atomicCall (fun w o => ⟨[ev], rfl, by simpa using hP⟩) (fun w o => ⟨[ev], by rw [he], by simpa using hP⟩)

theorem logs_note {P : Event → Prop} {ev : Event} (hP : P ev) : Always (Logs P) (note ev) :=
  Always.note (fun w => ⟨[ev], rfl, by simpa using hP⟩)

theorem logs_nowNanos {P : Event → Prop} : Always (Logs P) nowNanos := Always.nowNanos (fun w c => ⟨[], by simp, nofun⟩)

theorem logs_openTrunc {P : Event → Prop} {p : Path} (hP : P (.file .openTrunc p)) : Always (Logs P) (openTrunc p) :=
  logs_call hP (fun _ => rfl)

theorem logs_readFile {P : Event → Prop} {p : Path} (hP : P (.file .read p)) : Always (Logs P) (readFile p) := by
  unfold readFile
  refine Always.bind (logs_pre P) (logs_call hP (fun _ => rfl)) (fun _ => Always.bind (logs_pre P) (Always.peek (logs_pre P) p) ?_)
  intro f
  cases f with
  | none => exact Always.throw (logs_pre P) _
  | some f => exact Always.pure (logs_pre P) _

theorem logs_removeIgnoring {P : Event → Prop} {p : Path} (h1 : P (.file .remove p)) (h2 : P (.removeFailed p)) : Always (Logs P) (removeIgnoring p) := by
  unfold removeIgnoring removeFile
  refine Always.bind (logs_pre P) (Always.attempt (Always.bind (logs_pre P) (Always.peek (logs_pre P) p) ?_)) ?_
  · intro f
    cases f with
    | none => exact Always.throw (logs_pre P) _
    | some f => exact logs_call h1 (fun _ => rfl)
  · intro r
    split
    · exact Always.pure (logs_pre P) _
    · exact Always.pure (logs_pre P) _
    · exact logs_note h2

theorem logs_chmod {P : Event → Prop} {p : Path} {m : Nat} (hP : P (.file .chmod p)) : Always (Logs P) (chmod p m) := by
  unfold chmod
  refine Always.bind (logs_pre P) (Always.peek (logs_pre P) p) (fun f => ?_)
  cases f with
  | none => exact Always.throw (logs_pre P) _
  | some f => exact logs_call hP (fun _ => rfl)

end Ruroco
