import Verif.Model.Locks

/-! # C31: at most one process at a time -/

namespace Ruroco.Locks

/-- What holds in every reachable state. -/
structure Inv (s : Sys) : Prop where
  holder : ∀ p, inside (s.pc p) = true ↔ s.holder = some p
  serving : ∀ p, s.pc p = .serving → s.socket = some p
  session : ∀ p, s.holder = some p → s.session p = s.count
  bound : ∀ x ∈ s.trace, x.2 ≤ s.count
  sorted : s.trace.Pairwise (fun x y => x.2 ≤ y.2)
  owner : ∀ x ∈ s.trace, ∀ y ∈ s.trace, x.2 = y.2 → x.1 = y.1
  current : ∀ p, s.holder = some p → ∀ x ∈ s.trace, x.2 = s.count → x.1 = p

theorem inv_init (stale : Option Nat) : Inv (init stale) := by
  constructor <;> simp [init, inside]

theorem inv_end {s : Sys} (h : Inv s) (p : Nat) : Inv (end_ s p) := by
  have hh := h.holder
  refine ⟨?_, ?_, ?_, h.bound, h.sorted, h.owner, ?_⟩
  · intro q
    have := hh q
    simp only [end_, setPc]
    by_cases hq : q = p
    · subst hq
      simp only [if_true, inside]
      split <;> simp_all
    · simp only [if_neg hq]
      rw [this]
      split
      · rename_i e
        rw [e]; simp; exact fun h => hq h.symm
      · rfl
  · intro q hq
    simp only [end_, setPc] at hq ⊢
    by_cases e : q = p
    · simp [e] at hq
    · simp only [if_neg e] at hq; exact h.serving q hq
  · intro q hq
    simp only [end_, setPc] at hq ⊢
    split at hq
    · cases hq
    · exact h.session q hq
  · intro q hq
    simp only [end_, setPc] at hq ⊢
    split at hq
    · cases hq
    · exact h.current q hq

/-- A step inside the guarded part. -/
theorem inv_trace {s s' : Sys} (h : Inv s) {p : Nat} (hp : inside (s.pc p) = true) (hin : ∀ q, inside (s'.pc q) = inside (s.pc q))
    (hh : s'.holder = s.holder) (hc : s'.count = s.count) (hs : s'.session = s.session) (ht : s'.trace = s.trace ++ [(p, s.session p)])
    (hserv : ∀ q, s'.pc q = .serving → s'.socket = some q) : Inv s' := by
  have hold : s.holder = some p := (h.holder p).1 hp
  have hses := h.session p hold
  refine ⟨?_, hserv, ?_, ?_, ?_, ?_, ?_⟩
  · intro q; rw [hin, hh]; exact h.holder q
  · intro q; rw [hh, hs, hc]; exact h.session q
  · intro x hx
    rw [ht] at hx; rw [hc]
    rcases List.mem_append.1 hx with hx | hx
    · exact h.bound x hx
    · simp at hx; subst hx; exact Nat.le_of_eq hses
  · rw [ht, List.pairwise_append]
    refine ⟨h.sorted, by simp, ?_⟩
    intro x hx y hy
    simp at hy; subst hy
    show x.2 ≤ s.session p
    rw [hses]
    exact h.bound x hx
  · rw [ht]
    intro x hx y hy e
    rcases List.mem_append.1 hx with hx | hx <;> rcases List.mem_append.1 hy with hy | hy
    · exact h.owner x hx y hy e
    · simp at hy; subst hy
      exact h.current p hold x hx (e.trans hses)
    · simp at hx; subst hx
      exact (h.current p hold y hy (e.symm.trans hses)).symm
    · simp at hx hy; subst hx; subst hy; rfl
  · intro q hq x hx hx2
    rw [hh] at hq; rw [hc] at hx2; rw [ht] at hx
    rcases List.mem_append.1 hx with hx | hx
    · exact h.current q hq x hx hx2
    · simp at hx; subst hx
      rw [hold] at hq; cases hq; rfl

theorem inv_step {s : Sys} (h : Inv s) (a : Action) : Inv (step s a) := by
  cases a with
  | start p =>
    simp only [step]
    split
    · rename_i ha
      refine ⟨?_, ?_, h.session, h.bound, h.sorted, h.owner, h.current⟩
      · intro q
        show inside (if q = p then Pc.opened else s.pc q) = true ↔ s.holder = some q
        rw [← h.holder q]
        by_cases hq : q = p
        · subst hq; simp [ha, inside]
        · simp [hq]
      · intro q hq
        have hq : (if q = p then Pc.opened else s.pc q) = .serving := hq
        by_cases e : q = p
        · simp [e] at hq
        · rw [if_neg e] at hq; exact h.serving q hq
    · exact h
  | tryLock p =>
    simp only [step]
    split
    · rename_i ha
      cases hh : s.holder with
      | some q => exact inv_end h p
      | none =>
        have hnone : ∀ q, inside (s.pc q) = false := by
          intro q
          have := h.holder q
          rw [hh] at this
          cases hb : inside (s.pc q)
          · rfl
          · exact absurd (this.1 hb) (by simp)
        refine ⟨?_, ?_, ?_, ?_, h.sorted, h.owner, ?_⟩
        · intro q
          show inside (if q = p then Pc.locked else s.pc q) = true ↔ some p = some q
          by_cases hq : q = p
          · subst hq; simp [inside]
          · rw [if_neg hq, hnone q]
            simp; exact fun h => hq h.symm
        · intro q hq
          have hq : (if q = p then Pc.locked else s.pc q) = .serving := hq
          by_cases e : q = p
          · simp [e] at hq
          · rw [if_neg e] at hq; exact h.serving q hq
        · intro q hq
          have hq : some p = some q := hq
          cases hq
          show (if p = p then s.count + 1 else _) = s.count + 1
          simp
        · intro x hx
          exact Nat.le_succ_of_le (h.bound x hx)
        · intro q _ x hx hx2
          have := h.bound x hx
          have hx2 : x.2 = s.count + 1 := hx2
          omega
    · exact h
  | work p =>
    simp only [step]
    split
    · rename_i hp
      exact inv_trace h hp (fun _ => rfl) rfl rfl rfl rfl (h.serving)
    · exact h
  | unlink p fails =>
    simp only [step]
    split
    · rename_i hp
      have hin : inside (s.pc p) = true := by rw [hp]; rfl
      refine inv_trace h hin ?_ rfl rfl rfl rfl ?_
      · intro q
        show inside (if q = p then Pc.cleared else s.pc q) = _
        by_cases hq : q = p
        · subst hq; simp [hp, inside]
        · simp [hq]
      · intro q hq
        have hq : (if q = p then Pc.cleared else s.pc q) = .serving := hq
        by_cases e : q = p
        · simp [e] at hq
        · rw [if_neg e] at hq
          have h1 : s.holder = some q := (h.holder q).1 (by rw [hq]; rfl)
          have h2 := (h.holder p).1 hin
          rw [h1] at h2
          cases h2
          exact absurd rfl e
    · exact h
  | bind p =>
    simp only [step]
    split
    · rename_i hp
      have hin : inside (s.pc p) = true := by rw [hp]; rfl
      cases hsock : s.socket with
      | some q => exact inv_end h p
      | none =>
        refine inv_trace h hin ?_ rfl rfl rfl rfl ?_
        · intro q
          show inside (if q = p then Pc.serving else s.pc q) = _
          by_cases hq : q = p
          · subst hq; simp [hp, inside]
          · simp [hq]
        · intro q hq
          have hq : (if q = p then Pc.serving else s.pc q) = .serving := hq
          show some p = some q
          by_cases e : q = p
          · rw [e]
          · rw [if_neg e] at hq
            have := h.serving q hq
            rw [hsock] at this
            cases this
    · exact h
  | die p => exact inv_end h p

theorem inv_run {s : Sys} (h : Inv s) (as : List Action) : Inv (run s as) := by
  induction as generalizing s with
  | nil => exact h
  | cons a rest ih => exact ih (inv_step h a)

/-- **C31a.** Under every interleaving of starts, lock attempts, work, ends and crashes of any number of processes, at most one is inside the guarded part. -/
theorem C31_mutual_exclusion (stale : Option Nat) (as : List Action) (p q : Nat) (hp : inside ((run (init stale) as).pc p) = true)
    (hq : inside ((run (init stale) as).pc q) = true) : p = q := by
  have h := inv_run (inv_init stale) as
  have h1 := (h.holder p).1 hp
  have h2 := (h.holder q).1 hq
  rw [h1] at h2
  exact Option.some.inj h2

/-- **C31b.** No lock outlives its process: an attempt to get the lock fails only if some other process is inside the guarded part at that moment; in
particular crashed holders block nobody. -/
theorem C31_refused_only_by_live_holder (stale : Option Nat) (as : List Action) (p : Nat) (hp : (run (init stale) as).pc p = .opened) :
    (step (run (init stale) as) (.tryLock p)).pc p = .locked ∨
      ∃ q, q ≠ p ∧ inside ((run (init stale) as).pc q) = true := by
  have h := inv_run (inv_init stale) as
  generalize run (init stale) as = s at h hp
  simp only [step]
  rw [if_pos hp]
  cases hh : s.holder with
  | none => exact Or.inl (if_pos rfl)
  | some q =>
    refine Or.inr ⟨q, ?_, (h.holder q).2 hh⟩
    rintro rfl
    have := (h.holder q).2 hh
    rw [hp] at this
    cases this

/-- **C31c.** While a commander serves, the socket at the path is its own: no other start-up replaces or removes it. -/
theorem C31_live_socket_is_own (stale : Option Nat) (as : List Action) (p : Nat) (hp : (run (init stale) as).pc p = .serving) :
    (run (init stale) as).socket = some p :=
  (inv_run (inv_init stale) as).serving p hp

/-- **C31d.** Guarded parts do not interleave: between two steps of one guarded part only steps of the same guarded part, hence of the same process,
happen. -/
theorem C31_guarded_parts_disjoint (stale : Option Nat) (as : List Action) (a b c : List (Nat × Nat)) (x y z : Nat × Nat)
    (ht : (run (init stale) as).trace = a ++ x :: b ++ y :: c) (hxy : x.2 = y.2) (hz : z ∈ b) : z = x ∧ x.1 = y.1 := by
  have h := inv_run (inv_init stale) as
  generalize run (init stale) as = s at h ht
  have hs := h.sorted
  rw [ht] at hs
  have ho := h.owner
  rw [ht] at ho
  have h1 : x.2 ≤ z.2 := by
    rw [List.append_assoc, List.pairwise_append] at hs
    have := hs.2.1
    rw [List.cons_append, List.pairwise_cons] at this
    exact this.1 z (by simp [hz])
  have h2 : z.2 ≤ y.2 := by
    rw [List.pairwise_append] at hs
    exact hs.2.2 z (by simp [hz]) y (by simp)
  have h3 : z.2 = x.2 := by omega
  refine ⟨Prod.ext (ho z (by simp [hz]) x (by simp) h3) h3, ho x (by simp) y (by simp) hxy⟩

/-- Two commanders: the second is refused while the first serves; after the first is killed, a third one replaces the left-over socket. -/
def exActions : List Action :=
  [.start 1, .start 2, .tryLock 1, .tryLock 2, .unlink 1 false, .bind 1, .work 1, .die 1, .start 3, .tryLock 3, .unlink 3 false, .bind 3, .work 3]

example : (run (init none) (exActions.take 7)).pc 1 = .serving ∧ (run (init none) (exActions.take 7)).pc 2 = .absent ∧
    (run (init none) exActions).pc 3 = .serving ∧ (run (init none) exActions).socket = some 3 ∧
    (run (init none) exActions).trace = [(1, 1), (1, 1), (1, 1), (3, 2), (3, 2), (3, 2)] := by
  decide

end Ruroco.Locks
