import Verif.Spec.Rate

/-! Slots of the rate limiter over time. -/

namespace Ruroco

open Spec (Req Timed limit admitted overOwn overGlobal)

theorem second_pos : 0 < SECOND := by decide

attribute [local irreducible] SECOND

/-! ## Association list -/

theorem lookup_set (l : List (Ip × Slot)) (i j : Ip) (s : Slot) : lookupIp (setIp l i s) j = if j = i then some s else lookupIp l j := by
  induction l with
  | nil =>
    simp only [setIp, lookupIp]
    by_cases h : i = j
    · simp [h]
    · rw [if_neg h, if_neg (fun e => h e.symm)]
  | cons x rest ih =>
    obtain ⟨k, v⟩ := x
    simp only [setIp]
    split
    · rename_i hk
      subst hk
      simp only [lookupIp]
      by_cases h : k = j
      · simp [h]
      · rw [if_neg h, if_neg h, if_neg (fun e => h e.symm)]
    · rename_i hk
      simp only [lookupIp, ih]
      by_cases h : k = j
      · subst h; simp [hk]
      · simp [h]

theorem map_fst_set (l : List (Ip × Slot)) (i : Ip) (s : Slot) :
    (setIp l i s).map Prod.fst = if i ∈ l.map Prod.fst then l.map Prod.fst else l.map Prod.fst ++ [i] := by
  induction l with
  | nil => simp [setIp]
  | cons x rest ih =>
    obtain ⟨k, v⟩ := x
    simp only [setIp]
    split
    · rename_i hk; subst hk; simp
    · rename_i hk
      simp only [List.map_cons, ih, List.mem_cons]
      have : i ≠ k := fun e => hk e.symm
      simp only [this, false_or]
      split <;> simp

theorem nodup_set {l : List (Ip × Slot)} (h : (l.map Prod.fst).Nodup) (i : Ip) (s : Slot) : ((setIp l i s).map Prod.fst).Nodup := by
  rw [map_fst_set]
  split
  · exact h
  · rename_i hm
    rw [List.nodup_append]
    refine ⟨h, by simp, ?_⟩
    intro a ha b hb
    simp at hb; subst hb
    intro e; subst e; exact hm ha

theorem lookup_mem {l : List (Ip × Slot)} (h : (l.map Prod.fst).Nodup) (i : Ip) (s : Slot) : lookupIp l i = some s ↔ (i, s) ∈ l := by
  induction l with
  | nil => simp [lookupIp]
  | cons x rest ih =>
    obtain ⟨k, v⟩ := x
    simp only [List.map_cons, List.nodup_cons] at h
    simp only [lookupIp]
    split
    · rename_i hk; subst hk
      constructor
      · intro e; cases e; simp
      · intro hm
        rcases List.mem_cons.1 hm with e | hm
        · cases e; rfl
        · exact absurd (List.mem_map.2 ⟨_, hm, rfl⟩) h.1
    · rename_i hk
      rw [ih h.2]
      constructor
      · intro hm; simp [hm]
      · intro hm
        rcases List.mem_cons.1 hm with e | hm
        · cases e; exact absurd rfl hk
        · exact hm

theorem nodup_drop {l : List (Ip × Slot)} (h : (l.map Prod.fst).Nodup) (rd : Readings) : ((dropOld l rd).map Prod.fst).Nodup :=
  h.sublist (List.filter_sublist.map _)

theorem lookup_drop {l : List (Ip × Slot)} (h : (l.map Prod.fst).Nodup) (rd : Readings) (i : Ip) :
    lookupIp (dropOld l rd) i = (lookupIp l i).filter (fun s => decide (rd.sweep i - s.start < SECOND)) := by
  apply Option.ext
  intro s
  rw [lookup_mem (nodup_drop h rd)]
  simp only [dropOld, List.mem_filter]
  rw [← lookup_mem h, Option.filter_eq_some_iff]

/-! ## What one check does -/

/-- The slot of source `ip` seen by a request: survived its sweep, or new. -/
def RateLimiter.ownSlot (rl : RateLimiter) (ip : Ip) (rd : Readings) : Slot := (lookupIp (dropOld rl.perIp rd) ip).getD ⟨rd.insert, 0⟩

theorem check_perIp (rl : RateLimiter) (ip : Ip) (m g : Nat) (rd : Readings) :
    (rl.check ip m g rd).2.perIp = setIp (dropOld rl.perIp rd) ip ((rl.ownSlot ip rd).bump m rd.ipElapsed rd.ipReset).2 := by
  unfold RateLimiter.check RateLimiter.ownSlot
  simp only
  split
  · rfl
  · split <;> rfl

theorem check_own {rl : RateLimiter} {ip : Ip} {m g : Nat} {rd : Readings} (h : ((rl.ownSlot ip rd).bump m rd.ipElapsed rd.ipReset).1 = false) :
    (rl.check ip m g rd).1 = .error .rateIp ∧ (rl.check ip m g rd).2.global = rl.global := by
  unfold RateLimiter.ownSlot at h
  unfold RateLimiter.check
  simp [h]

theorem check_global {rl : RateLimiter} {ip : Ip} {m g : Nat} {rd : Readings} (h : ((rl.ownSlot ip rd).bump m rd.ipElapsed rd.ipReset).1 = true) :
    (rl.check ip m g rd).1 = (if (rl.global.bump g rd.globalElapsed rd.globalReset).1 then .ok () else .error .rateGlobal) ∧
      (rl.check ip m g rd).2.global = (rl.global.bump g rd.globalElapsed rd.globalReset).2 := by
  unfold RateLimiter.ownSlot at h
  unfold RateLimiter.check
  simp only [h]
  cases hg : (rl.global.bump g rd.globalElapsed rd.globalReset).1 <;> simp

theorem bump_cases (s : Slot) (max e r : Nat) :
    (SECOND ≤ e - s.start ∧ s.bump max e r = (true, ⟨r, 1⟩)) ∨
    (e - s.start < SECOND ∧ max ≤ s.count ∧ s.bump max e r = (false, s)) ∨
    (e - s.start < SECOND ∧ s.count < max ∧ s.bump max e r = (true, ⟨s.start, s.count + 1⟩)) := by
  unfold Slot.bump
  by_cases h1 : e - s.start ≥ SECOND
  · exact Or.inl ⟨h1, by rw [if_pos h1]⟩
  · by_cases h2 : s.count ≥ max
    · exact Or.inr (Or.inl ⟨by omega, h2, by rw [if_neg h1, if_pos h2]⟩)
    · exact Or.inr (Or.inr ⟨by omega, by omega, by rw [if_neg h1, if_neg h2]⟩)

/-! ## Sliding-second bound -/

/-- How many more admissions with a decision time in `[T, T + SECOND)` are possible, at time `t` with this slot (limit `m ≥ 1`). -/
def room (T m : Nat) (t : Nat) : Option Slot → Nat
  | none => if T + SECOND ≤ t then 0 else if t < T then 2 * m else m
  | some s => if T + SECOND ≤ t then 0 else if t < T then 2 * m else if T ≤ s.start then m - s.count else (m - s.count) + m

theorem room_later {T m t t' : Nat} (h : t ≤ t') (s : Option Slot) : room T m t' s ≤ room T m t s := by
  cases s with
  | none => simp only [room]; (repeat' split) <;> omega
  | some s => simp only [room]; (repeat' split) <;> omega

theorem room_drop {T m t : Nat} {s : Slot} (h : SECOND ≤ t - s.start) : room T m t none ≤ room T m t (some s) := by
  have := second_pos
  simp only [room]; (repeat' split) <;> omega

theorem room_insert {T m t x : Nat} (h : t ≤ x) : room T m x (some ⟨x, 0⟩) ≤ room T m t none := by
  simp only [room]; (repeat' split) <;> omega

theorem room_bump {T m lim e r : Nat} (hm : 1 ≤ m) (hlim : lim ≤ m) (her : e ≤ r) (s : Slot) (hs : s.start ≤ e) :
    room T m r (some (s.bump lim e r).2) + (if (s.bump lim e r).1 = true ∧ T ≤ e ∧ e < T + SECOND then 1 else 0) ≤ room T m e (some s) := by
  have := second_pos
  rcases bump_cases s lim e r with ⟨h1, h2⟩ | ⟨h1, h2, h3⟩ | ⟨h1, h2, h3⟩
  · rw [h2]; simp only [room, true_and]; (repeat' split) <;> omega
  · rw [h3]; simp only [room, Bool.false_eq_true, false_and, if_false]; (repeat' split) <;> omega
  · rw [h3]; simp only [room, true_and]; (repeat' split) <;> omega

/-- As `room`, but a slot whose window is over counts as absent. -/
def roomE (T m t : Nat) : Option Slot → Nat
  | none => room T m t none
  | some s => if s.start + SECOND ≤ t then room T m t none else room T m t (some s)

theorem roomE_le (T m t : Nat) (s : Option Slot) : roomE T m t s ≤ room T m t s := by
  cases s with
  | none => exact Nat.le_refl _
  | some s =>
    simp only [roomE]
    split
    · exact room_drop (by omega)
    · exact Nat.le_refl _

theorem roomE_later {T m t t' : Nat} (h : t ≤ t') (s : Option Slot) : roomE T m t' s ≤ roomE T m t s := by
  cases s with
  | none => simp only [roomE]; exact room_later h _
  | some s =>
    simp only [roomE]
    split
    · split
      · exact room_later h _
      · exact Nat.le_trans (room_drop (by omega)) (room_later h _)
    · rw [if_neg (by omega)]
      exact room_later h _

theorem room_bump_expired {T m lim e r : Nat} (hm : 1 ≤ m) (her : e ≤ r) (s : Slot) (hs : SECOND ≤ e - s.start) :
    room T m r (some (s.bump lim e r).2) + (if (s.bump lim e r).1 = true ∧ T ≤ e ∧ e < T + SECOND then 1 else 0) ≤ room T m e none := by
  rcases bump_cases s lim e r with ⟨h1, h2⟩ | ⟨h1, h2, h3⟩ | ⟨h1, h2, h3⟩
  · rw [h2]; simp only [room, true_and]; (repeat' split) <;> omega
  · omega
  · omega

/-! ## Invariants of the state -/

/-- No address twice; no window starts in the future. -/
structure Sane (rl : RateLimiter) (t : Nat) : Prop where
  nodup : (rl.perIp.map Prod.fst).Nodup
  past : ∀ ip s, lookupIp rl.perIp ip = some s → s.start ≤ t
  pastGlobal : rl.global.start ≤ t

theorem Sane.new (t : Nat) : Sane (RateLimiter.new t) t := ⟨by simp [RateLimiter.new], by simp [RateLimiter.new, lookupIp], Nat.le_refl _⟩

theorem bump_start {s : Slot} {lim e r t : Nat} (hs : s.start ≤ t) (hr : r ≤ t) : (s.bump lim e r).2.start ≤ t := by
  rcases bump_cases s lim e r with ⟨_, h⟩ | ⟨_, _, h⟩ | ⟨_, _, h⟩ <;> rw [h] <;> assumption

/-- One request is in time. -/
def Timed1 (t : Nat) (r : Req) : Prop :=
  t ≤ r.arr ∧ (∀ ip, r.arr ≤ r.rd.sweep ip ∧ r.rd.sweep ip ≤ r.rd.insert) ∧ r.rd.insert ≤ r.rd.ipElapsed ∧ r.rd.ipElapsed ≤ r.rd.ipReset ∧
      r.rd.ipReset ≤ r.rd.globalElapsed ∧ r.rd.globalElapsed ≤ r.rd.globalReset

theorem Sane.ownSlot {rl : RateLimiter} {t : Nat} (h : Sane rl t) {r : Req} (ht : Timed1 t r) : (rl.ownSlot r.ip r.rd).start ≤ r.rd.insert := by
  unfold RateLimiter.ownSlot
  rw [lookup_drop h.nodup]
  have := ht.2.1 r.ip
  have := ht.1
  cases hl : lookupIp rl.perIp r.ip with
  | none => exact Nat.le_refl _
  | some s =>
    have := h.past _ _ hl
    simp only [Option.filter]
    split
    · simp only [Option.getD_some]; omega
    · exact Nat.le_refl _

theorem Sane.check {rl : RateLimiter} {t : Nat} (h : Sane rl t) {r : Req} (ht : Timed1 t r) (m g : Nat) :
    Sane (rl.check r.ip m g r.rd).2 r.rd.globalReset := by
  have hown := h.ownSlot ht
  have := ht.2.1 r.ip
  obtain ⟨t1, t2, t3, t4, t5, t6⟩ := ht
  refine ⟨?_, ?_, ?_⟩
  · rw [check_perIp]
    exact nodup_set (nodup_drop h.nodup _) _ _
  · intro ip s hl
    rw [check_perIp, lookup_set] at hl
    split at hl
    · cases hl
      exact bump_start (by omega) (by omega)
    · rw [lookup_drop h.nodup, Option.filter_eq_some_iff] at hl
      have := h.past _ _ hl.1
      omega
  · cases hb : ((rl.ownSlot r.ip r.rd).bump m r.rd.ipElapsed r.rd.ipReset).1 with
    | false =>
      rw [(check_own hb).2]
      have := h.pastGlobal
      omega
    | true =>
      rw [(check_global hb).2]
      have := h.pastGlobal
      exact bump_start (by omega) (by omega)

/-! ## The bound for sequences -/

/-- Decision time of the per-source check lies in the second starting at `T`. -/
abbrev ownIn (T : Nat) (x : Req × Except Err Unit) : Bool := decide (T ≤ x.1.rd.ipElapsed ∧ x.1.rd.ipElapsed < T + SECOND)

abbrev globalIn (T : Nat) (x : Req × Except Err Unit) : Bool := decide (T ≤ x.1.rd.globalElapsed ∧ x.1.rd.globalElapsed < T + SECOND)

theorem own_step {rl : RateLimiter} {t : Nat} (h : Sane rl t) {r : Req} (ht : Timed1 t r) (m g T : Nat) (ip : Ip) :
    room T (max m 1) r.rd.globalReset (lookupIp (rl.check r.ip m g r.rd).2.perIp ip) +
      (if r.ip = ip ∧ ¬ (rl.check r.ip m g r.rd).1 = .error .rateIp ∧ T ≤ r.rd.ipElapsed ∧ r.rd.ipElapsed < T + SECOND then 1 else 0)
      ≤ roomE T (max m 1) t (lookupIp rl.perIp ip) := by
  obtain ⟨t1, t2, t3, t4, t5, t6⟩ := ht
  have t2' := t2 ip
  rw [check_perIp, lookup_set, lookup_drop h.nodup]
  -- the sweep
  have hsweep : room T (max m 1) (r.rd.sweep ip) ((lookupIp rl.perIp ip).filter (fun s => decide (r.rd.sweep ip - s.start < SECOND)))
      ≤ roomE T (max m 1) t (lookupIp rl.perIp ip) := by
    cases lookupIp rl.perIp ip with
    | none => exact room_later (by omega) _
    | some s =>
      simp only [Option.filter, roomE]
      split
      · rename_i hc
        simp only [decide_eq_true_eq] at hc
        rw [if_neg (by omega)]
        exact room_later (by omega) _
      · rename_i hc
        simp only [decide_eq_true_eq] at hc
        split
        · exact room_later (by omega) _
        · exact Nat.le_trans (room_drop (by omega)) (room_later (by omega) _)
  by_cases hip : ip = r.ip
  · subst hip
    rw [if_pos rfl]
    have hown := h.ownSlot ⟨t1, t2, t3, t4, t5, t6⟩
    -- insertion
    have hins : room T (max m 1) r.rd.ipElapsed (some (rl.ownSlot r.ip r.rd)) ≤ roomE T (max m 1) t (lookupIp rl.perIp r.ip) := by
      refine Nat.le_trans ?_ hsweep
      unfold RateLimiter.ownSlot
      rw [lookup_drop h.nodup]
      cases (lookupIp rl.perIp r.ip).filter (fun s => decide (r.rd.sweep r.ip - s.start < SECOND)) with
      | none => exact Nat.le_trans (room_later (by omega) _) (room_insert (x := r.rd.insert) (by omega))
      | some s => exact room_later (by omega) _
    have hb := room_bump (T := T) (m := max m 1) (lim := m) (e := r.rd.ipElapsed) (r := r.rd.ipReset) (by omega) (by omega) (by omega)
      (rl.ownSlot r.ip r.rd) (by omega)
    have hl := room_later (T := T) (m := max m 1) (t := r.rd.ipReset) (t' := r.rd.globalReset) (by omega)
      (some ((rl.ownSlot r.ip r.rd).bump m r.rd.ipElapsed r.rd.ipReset).2)
    cases hv : ((rl.ownSlot r.ip r.rd).bump m r.rd.ipElapsed r.rd.ipReset).1 with
    | false =>
      rw [if_neg (fun hx => hx.2.1 (check_own hv).1)]
      omega
    | true =>
      rw [hv] at hb
      have : (if r.ip = r.ip ∧ ¬ (rl.check r.ip m g r.rd).1 = .error .rateIp ∧ T ≤ r.rd.ipElapsed ∧ r.rd.ipElapsed < T + SECOND then 1 else 0)
        ≤ (if True ∧ T ≤ r.rd.ipElapsed ∧ r.rd.ipElapsed < T + SECOND then 1 else 0 : Nat) := by
        split
        · rename_i hx
          rw [if_pos ⟨trivial, hx.2.2⟩]; exact Nat.le_refl _
        · exact Nat.zero_le _
      simp only [true_and] at hb this ⊢
      omega
  · rw [if_neg hip, if_neg (fun hx => hip hx.1.symm)]
    exact Nat.le_trans (room_later (by omega) _) hsweep

theorem own_bound {m g T : Nat} {ip : Ip} (reqs : List Req) {rl : RateLimiter} {t : Nat} (h : Sane rl t) (ht : Timed t reqs) :
    ((limit m g rl reqs).1.countP (fun x => decide (x.1.ip = ip) && !overOwn x && ownIn T x)) ≤ roomE T (max m 1) t (lookupIp rl.perIp ip) := by
  induction reqs generalizing rl t with
  | nil => simp [limit]
  | cons r rest ih =>
    obtain ⟨h1, h2⟩ := ht
    have := ih (h.check h1 m g) h2
    have hs := own_step h h1 m g T ip
    simp only [limit, List.countP_cons]
    refine Nat.le_trans (Nat.add_le_add (Nat.le_trans this (roomE_le _ _ _ _)) ?_) hs
    have hov : overOwn (r, (rl.check r.ip m g r.rd).1) = decide ((rl.check r.ip m g r.rd).1 = .error .rateIp) := by
      unfold overOwn
      split
      · rename_i he; simp only at he; simp [he]
      · rename_i he
        rw [eq_comm, decide_eq_false_iff_not]
        exact fun hx => he (by simpa using hx)
    rw [hov]
    simp only [Bool.and_eq_true, Bool.not_eq_true', decide_eq_true_eq, decide_eq_false_iff_not, and_assoc]
    split
    · rename_i hx
      exact Nat.le_refl 1
    · exact Nat.zero_le _

theorem global_step {rl : RateLimiter} {t : Nat} (h : Sane rl t) {r : Req} (ht : Timed1 t r) (m g T : Nat) :
    room T (max g 1) r.rd.globalReset (some (rl.check r.ip m g r.rd).2.global) +
      (if (rl.check r.ip m g r.rd).1 = .ok () ∧ T ≤ r.rd.globalElapsed ∧ r.rd.globalElapsed < T + SECOND then 1 else 0)
      ≤ room T (max g 1) t (some rl.global) ∧
    ((rl.check r.ip m g r.rd).1 ≠ .error .rateIp → room T (max g 1) r.rd.globalReset (some (rl.check r.ip m g r.rd).2.global) +
      (if (rl.check r.ip m g r.rd).1 = .ok () ∧ T ≤ r.rd.globalElapsed ∧ r.rd.globalElapsed < T + SECOND then 1 else 0)
      ≤ roomE T (max g 1) t (some rl.global)) := by
  have t2' := ht.2.1 r.ip
  obtain ⟨t1, t2, t3, t4, t5, t6⟩ := ht
  have hp := h.pastGlobal
  have hl := room_later (T := T) (m := max g 1) (t := t) (t' := r.rd.globalElapsed) (by omega) (some rl.global)
  have hl' := room_later (T := T) (m := max g 1) (t := t) (t' := r.rd.globalReset) (by omega) (some rl.global)
  cases hv : ((rl.ownSlot r.ip r.rd).bump m r.rd.ipElapsed r.rd.ipReset).1 with
  | false =>
    have hne : ¬ ((rl.check r.ip m g r.rd).1 = .ok () ∧ T ≤ r.rd.globalElapsed ∧ r.rd.globalElapsed < T + SECOND) := by
      intro hx
      have := hx.1
      rw [(check_own hv).1] at this
      cases this
    rw [(check_own hv).2, if_neg hne, Nat.add_zero]
    exact ⟨hl', fun hx => absurd (check_own hv).1 hx⟩
  | true =>
    have hb := room_bump (T := T) (m := max g 1) (lim := g) (e := r.rd.globalElapsed) (r := r.rd.globalReset) (by omega) (by omega) (by omega)
      rl.global (by omega)
    have key : room T (max g 1) r.rd.globalReset (some (rl.check r.ip m g r.rd).2.global) +
        (if (rl.check r.ip m g r.rd).1 = .ok () ∧ T ≤ r.rd.globalElapsed ∧ r.rd.globalElapsed < T + SECOND then 1 else 0) ≤
        room T (max g 1) r.rd.globalReset (some (rl.global.bump g r.rd.globalElapsed r.rd.globalReset).2) +
        (if (rl.global.bump g r.rd.globalElapsed r.rd.globalReset).1 = true ∧ T ≤ r.rd.globalElapsed ∧ r.rd.globalElapsed < T + SECOND then 1 else 0) := by
      rw [(check_global hv).2]
      by_cases hA : (rl.check r.ip m g r.rd).1 = .ok () ∧ T ≤ r.rd.globalElapsed ∧ r.rd.globalElapsed < T + SECOND
      · rw [if_pos hA]
        have hg : (rl.global.bump g r.rd.globalElapsed r.rd.globalReset).1 = true := by
          have := hA.1
          rw [(check_global hv).1] at this
          cases hg : (rl.global.bump g r.rd.globalElapsed r.rd.globalReset).1 with
          | true => rfl
          | false => rw [hg] at this; simp at this
        rw [if_pos ⟨hg, hA.2⟩]
        exact Nat.le_refl _
      · rw [if_neg hA, Nat.add_zero]
        exact Nat.le_add_right _ _
    refine ⟨Nat.le_trans key (Nat.le_trans hb hl), fun _ => Nat.le_trans key ?_⟩
    simp only [roomE]
    by_cases hx : rl.global.start + SECOND ≤ t
    · rw [if_pos hx]
      exact Nat.le_trans (room_bump_expired (by omega) (by omega) _ (by omega)) (room_later (by omega) _)
    · rw [if_neg hx]
      exact Nat.le_trans hb hl

theorem global_bound {m g T : Nat} (reqs : List Req) {rl : RateLimiter} {t : Nat} (h : Sane rl t) (ht : Timed t reqs) :
    ((limit m g rl reqs).1.countP (fun x => admitted x && globalIn T x)) ≤ roomE T (max g 1) t (some rl.global) := by
  induction reqs generalizing rl t with
  | nil => simp [limit]
  | cons r rest ih =>
    obtain ⟨h1, h2⟩ := ht
    have := ih (h.check h1 m g) h2
    have hs := global_step h h1 m g T
    simp only [limit, List.countP_cons]
    cases hv : ((rl.ownSlot r.ip r.rd).bump m r.rd.ipElapsed r.rd.ipReset).1 with
    | false =>
      have hna : admitted (r, (rl.check r.ip m g r.rd).1) = false := by rw [(check_own hv).1]; rfl
      rw [hna]
      simp only [Bool.false_and, Bool.false_eq_true, if_false, Nat.add_zero]
      refine Nat.le_trans this ?_
      rw [(check_own hv).2]
      have := h1.2.1 r.ip
      exact roomE_later (by have := h1.1; have := h1.2.2; omega) _
    | true =>
    refine Nat.le_trans (Nat.add_le_add (Nat.le_trans this (roomE_le _ _ _ _)) ?_) (hs.2 (by
      rw [(check_global hv).1]; split <;> simp))
    have hov : admitted (r, (rl.check r.ip m g r.rd).1) = decide ((rl.check r.ip m g r.rd).1 = .ok ()) := by
      unfold admitted
      split
      · rename_i he; simp only at he; simp [he]
      · rename_i e he; simp only at he; simp [he]
    rw [hov]
    simp only [Bool.and_eq_true, decide_eq_true_eq]
    split
    · rename_i hx
      exact Nat.le_refl 1
    · exact Nat.zero_le _

theorem room_le (T m t : Nat) (s : Option Slot) : room T m t s ≤ 2 * m := by
  cases s <;> (simp only [room]; (repeat' split) <;> omega)

/-! ## After a quiet second -/

theorem timed_max {T t : Nat} {r : Req} {rest : List Req} (h : Timed t (r :: rest)) (hT : T ≤ r.arr) : Timed (max T t) (r :: rest) :=
  ⟨⟨by have := h.1.1; omega, h.1.2⟩, h.2⟩

theorem Sane.later {rl : RateLimiter} {t t' : Nat} (h : Sane rl t) (ht : t ≤ t') : Sane rl t' :=
  ⟨h.nodup, fun ip s hs => Nat.le_trans (h.past ip s hs) ht, Nat.le_trans h.pastGlobal ht⟩

theorem own_quiet {m g T : Nat} {ip : Ip} (reqs : List Req) {rl : RateLimiter} {t : Nat} (h : Sane rl t) (ht : Timed t reqs)
    (hslot : ∀ s, lookupIp rl.perIp ip = some s → s.start + SECOND ≤ T)
    (hq : ∀ r ∈ reqs, r.ip = ip → r.rd.globalReset + SECOND ≤ T ∨ T ≤ r.arr) :
    ((limit m g rl reqs).1.countP (fun x => decide (x.1.ip = ip) && !overOwn x && ownIn T x)) ≤ max m 1 := by
  induction reqs generalizing rl t with
  | nil => simp [limit]
  | cons r rest ih =>
    by_cases harr : T ≤ r.arr
    · refine Nat.le_trans (own_bound (r :: rest) (h.later (t' := max T t) (by omega)) (timed_max ht harr)) ?_
      cases hl : lookupIp rl.perIp ip with
      | none => simp only [roomE, room]; (repeat' split) <;> omega
      | some s =>
        have := hslot s hl
        simp only [roomE]
        rw [if_pos (by omega)]
        simp only [room]; (repeat' split) <;> omega
    · obtain ⟨h1, h2⟩ := ht
      have hsp := second_pos
      have hrest := ih (h.check h1 m g) h2 (by
        intro s hs
        rw [check_perIp, lookup_set] at hs
        split at hs
        · rename_i hip
          cases hs
          have hqq := (hq r (by simp) hip.symm).resolve_right harr
          have hown := h.ownSlot h1
          have := h1.2.2
          refine Nat.le_trans (Nat.add_le_add_right (bump_start (t := r.rd.globalReset) (by omega) (by omega)) _) hqq
        · rw [lookup_drop h.nodup, Option.filter_eq_some_iff] at hs
          exact hslot s hs.1) (fun r hr => hq r (by simp [hr]))
      simp only [limit, List.countP_cons]
      rw [if_neg, Nat.add_zero]
      · exact hrest
      · simp only [Bool.and_eq_true, decide_eq_true_eq]
        rintro ⟨⟨hip, _⟩, hin⟩
        have := (hq r (by simp) hip).resolve_right harr
        have := h1.2.2
        omega

theorem global_quiet {m g T : Nat} (reqs : List Req) {rl : RateLimiter} {t : Nat} (h : Sane rl t) (ht : Timed t reqs)
    (hslot : rl.global.start + SECOND ≤ T) (hq : ∀ r ∈ reqs, r.rd.globalReset + SECOND ≤ T ∨ T ≤ r.arr) :
    ((limit m g rl reqs).1.countP (fun x => admitted x && globalIn T x)) ≤ max g 1 := by
  induction reqs generalizing rl t with
  | nil => simp [limit]
  | cons r rest ih =>
    by_cases harr : T ≤ r.arr
    · refine Nat.le_trans (global_bound (r :: rest) (h.later (t' := max T t) (by omega)) (timed_max ht harr)) ?_
      simp only [roomE]
      rw [if_pos (by omega)]
      simp only [room]; (repeat' split) <;> omega
    · obtain ⟨h1, h2⟩ := ht
      have hsp := second_pos
      have hr := (hq r (by simp)).resolve_right harr
      have hrest := ih (h.check h1 m g) h2 (by
        have := (h.check h1 m g).pastGlobal
        omega) (fun r hr => hq r (by simp [hr]))
      simp only [limit, List.countP_cons]
      rw [if_neg, Nat.add_zero]
      · exact hrest
      · simp only [Bool.and_eq_true, decide_eq_true_eq]
        rintro ⟨_, hin⟩
        have := h1.2.2
        omega

/-! ## Memory -/

theorem length_le_of_nodup_subset {l l' : List Ip} (h : l.Nodup) (hs : ∀ a ∈ l, a ∈ l') : l.length ≤ l'.length := by
  induction l generalizing l' with
  | nil => simp
  | cons a l ih =>
    rw [List.nodup_cons] at h
    have ha := hs a (by simp)
    have := ih (l' := l'.erase a) h.2 (by
      intro b hb
      have hne : b ≠ a := fun e => h.1 (e ▸ hb)
      exact (List.mem_erase_of_ne hne).2 (hs b (by simp [hb])))
    rw [List.length_erase_of_mem ha] at this
    have : 0 < l'.length := List.length_pos_of_mem ha
    simp only [List.length_cons]
    omega

/-- Every remembered window was opened by a request of that source in `done`. -/
def Opened (rl : RateLimiter) (done : List Req) : Prop :=
  ∀ ip s, lookupIp rl.perIp ip = some s → ∃ x ∈ done, x.ip = ip ∧ s.start ≤ x.rd.ipReset

theorem Opened.check {rl : RateLimiter} {t : Nat} {done : List Req} (h : Sane rl t) (ho : Opened rl done) {r : Req} (ht : Timed1 t r) (m g : Nat) :
    Opened (rl.check r.ip m g r.rd).2 (done ++ [r]) := by
  intro ip s hs
  rw [check_perIp, lookup_set] at hs
  split at hs
  · rename_i hip
    cases hs
    have hown := h.ownSlot ht
    have := ht.2.2
    exact ⟨r, by simp, hip.symm, bump_start (by omega) (Nat.le_refl _)⟩
  · rw [lookup_drop h.nodup, Option.filter_eq_some_iff] at hs
    obtain ⟨x, h1, h2⟩ := ho ip s hs.1
    exact ⟨x, by simp [h1], h2⟩

theorem limit_opened {m g : Nat} (reqs : List Req) {rl : RateLimiter} {t : Nat} (done : List Req) (h : Sane rl t) (ho : Opened rl done)
    (ht : Timed t reqs) :
    Opened (limit m g rl reqs).2 (done ++ reqs) := by
  induction reqs generalizing rl t done with
  | nil => simpa [limit] using ho
  | cons x rest ih =>
    have := ih (done ++ [x]) (h.check ht.1 m g) (ho.check h ht.1 m g) ht.2
    simpa [limit] using this

theorem timed_append {t : Nat} {a b : List Req} (h : Timed t (a ++ b)) {m g : Nat} {rl : RateLimiter} (hs : Sane rl t) :
    Timed t a ∧ ∃ t', Sane (limit m g rl a).2 t' ∧ Timed t' b := by
  induction a generalizing t rl with
  | nil => exact ⟨trivial, t, hs, h⟩
  | cons x rest ih =>
    obtain ⟨h1, t', h2, h3⟩ := ih h.2 (hs.check h.1 m g)
    exact ⟨⟨h.1, h1⟩, t', h2, h3⟩

/-! ## Budgets -/

/-- The count of a window is at most the number of requests of that source in `done` since the window opened. -/
def Counted (rl : RateLimiter) (done : List Req) : Prop :=
  ∀ ip s, lookupIp rl.perIp ip = some s → s.count ≤ done.countP (fun x => decide (x.ip = ip ∧ s.start ≤ x.rd.ipReset))

theorem Counted.check {rl : RateLimiter} {t : Nat} {done : List Req} (h : Sane rl t) (hc : Counted rl done) {r : Req} (ht : Timed1 t r) (m g : Nat) :
    Counted (rl.check r.ip m g r.rd).2 (done ++ [r]) := by
  intro ip s hs
  rw [check_perIp, lookup_set] at hs
  rw [List.countP_append]
  have h2 := ht.2.2
  split at hs
  · rename_i hip
    subst hip
    have hown := h.ownSlot ht
    have hcount : (rl.ownSlot r.ip r.rd).count ≤ done.countP (fun x => decide (x.ip = r.ip ∧ (rl.ownSlot r.ip r.rd).start ≤ x.rd.ipReset)) := by
      generalize ho : rl.ownSlot r.ip r.rd = o
      unfold RateLimiter.ownSlot at ho
      rw [lookup_drop h.nodup] at ho
      cases hf : (lookupIp rl.perIp r.ip).filter (fun s => decide (r.rd.sweep r.ip - s.start < SECOND)) with
      | none => rw [hf] at ho; subst ho; exact Nat.zero_le _
      | some s' =>
        rw [hf] at ho
        subst ho
        rw [Option.filter_eq_some_iff] at hf
        exact hc _ _ hf.1
    rcases bump_cases (rl.ownSlot r.ip r.rd) m r.rd.ipElapsed r.rd.ipReset with ⟨h1, hb⟩ | ⟨h1, _, hb⟩ | ⟨h1, _, hb⟩
    · rw [hb] at hs; cases hs
      have : [r].countP (fun x => decide (x.ip = r.ip ∧ r.rd.ipReset ≤ x.rd.ipReset)) = 1 := by simp
      simp only [this]
      omega
    · rw [hb] at hs; cases hs
      simp only
      omega
    · rw [hb] at hs; cases hs
      have : [r].countP (fun x => decide (x.ip = r.ip ∧ (rl.ownSlot r.ip r.rd).start ≤ x.rd.ipReset)) = 1 := by
        simp; omega
      simp only [this]
      omega
  · rw [lookup_drop h.nodup, Option.filter_eq_some_iff] at hs
    have := hc ip s hs.1
    omega

theorem limit_counted {m g : Nat} (reqs : List Req) {rl : RateLimiter} {t : Nat} (done : List Req) (h : Sane rl t) (ho : Counted rl done)
    (ht : Timed t reqs) : Counted (limit m g rl reqs).2 (done ++ reqs) := by
  induction reqs generalizing rl t done with
  | nil => simpa [limit] using ho
  | cons x rest ih =>
    have := ih (done ++ [x]) (h.check ht.1 m g) (ho.check h ht.1 m g) ht.2
    simpa [limit] using this

def CountedG (rl : RateLimiter) (done : List (Req × Except Err Unit)) : Prop :=
  rl.global.count ≤ done.countP (fun x => admitted x && decide (rl.global.start ≤ x.1.rd.globalReset))

theorem CountedG.check {rl : RateLimiter} {t : Nat} {done : List (Req × Except Err Unit)} (h : Sane rl t) (hc : CountedG rl done) {r : Req}
    (ht : Timed1 t r) (m g : Nat) : CountedG (rl.check r.ip m g r.rd).2 (done ++ [(r, (rl.check r.ip m g r.rd).1)]) := by
  unfold CountedG at hc ⊢
  rw [List.countP_append]
  have t2 := ht.2.1 r.ip
  have h2 := ht.2.2
  have hp := h.pastGlobal
  cases hv : ((rl.ownSlot r.ip r.rd).bump m r.rd.ipElapsed r.rd.ipReset).1 with
  | false => rw [(check_own hv).2]; omega
  | true =>
    rw [(check_global hv).2, (check_global hv).1]
    rcases bump_cases rl.global g r.rd.globalElapsed r.rd.globalReset with ⟨h1, hb⟩ | ⟨h1, _, hb⟩ | ⟨h1, _, hb⟩
    · rw [hb]
      simp [admitted]
    · rw [hb]
      simp only
      omega
    · rw [hb]
      have : rl.global.start ≤ r.rd.globalReset := by have := ht.1; omega
      have h1 : [(r, if True then Except.ok () else Except.error Err.rateGlobal)].countP
          (fun x => admitted x && decide (rl.global.start ≤ x.1.rd.globalReset)) = 1 := by simp [admitted, this]
      simp only [h1]
      omega

theorem limit_countedG {m g : Nat} (reqs : List Req) {rl : RateLimiter} {t : Nat} (done : List (Req × Except Err Unit)) (h : Sane rl t)
    (ho : CountedG rl done) (ht : Timed t reqs) : CountedG (limit m g rl reqs).2 (done ++ (limit m g rl reqs).1) := by
  induction reqs generalizing rl t done with
  | nil => simpa [limit] using ho
  | cons x rest ih =>
    have := ih (done ++ [(x, (rl.check x.ip m g x.rd).1)]) (h.check ht.1 m g) (ho.check h ht.1 m g) ht.2
    simpa [limit] using this

/-! ## Independence of other sources -/

/-- The two states agree on source `ip` as far as requests after time `t` can tell. -/
def Agree (ip : Ip) (t : Nat) (rl rl' : RateLimiter) : Prop :=
  lookupIp rl.perIp ip = lookupIp rl'.perIp ip ∨ (lookupIp rl.perIp ip = none ∧ ∃ s, lookupIp rl'.perIp ip = some s ∧ s.start + SECOND ≤ t)

theorem overOwn_eq {rl : RateLimiter} {r : Req} {m g : Nat} :
    overOwn (r, (rl.check r.ip m g r.rd).1) = !((rl.ownSlot r.ip r.rd).bump m r.rd.ipElapsed r.rd.ipReset).1 := by
  cases hv : ((rl.ownSlot r.ip r.rd).bump m r.rd.ipElapsed r.rd.ipReset).1 with
  | false => rw [(check_own hv).1]; rfl
  | true =>
    rw [(check_global hv).1]
    split <;> rfl

theorem Agree.own {ip : Ip} {t : Nat} {rl rl' : RateLimiter} (h : Sane rl t) (h' : Sane rl' t) (ha : Agree ip t rl rl') {r : Req} (ht : Timed1 t r)
    (hip : r.ip = ip) : rl.ownSlot r.ip r.rd = rl'.ownSlot r.ip r.rd := by
  subst hip
  unfold RateLimiter.ownSlot
  rw [lookup_drop h.nodup, lookup_drop h'.nodup]
  rcases ha with ha | ⟨ha, s, hs, hst⟩
  · rw [ha]
  · rw [ha, hs]
    have := ht.1
    have := ht.2.1 r.ip
    have hn : ¬ (r.rd.sweep r.ip - s.start < SECOND) := by omega
    simp [Option.filter, hn]

theorem independent {m g g' : Nat} (ip : Ip) (reqs : List Req) {rl rl' : RateLimiter} {t t' : Nat} (h : Sane rl t) (h' : Sane rl' t')
    (htt : t' ≤ t) (ha : Agree ip t rl rl') (ht : Timed t reqs) :
    ((limit m g rl reqs).1.filter (fun x => decide (x.1.ip = ip))).map overOwn =
      (limit m g' rl' (reqs.filter (fun r => decide (r.ip = ip)))).1.map overOwn := by
  induction reqs generalizing rl rl' t t' with
  | nil => simp [limit]
  | cons r rest ih =>
    obtain ⟨h1, h2⟩ := ht
    have htm := h1.2.2
    have ht2 := h1.2.1 ip
    have ht1 := h1.1
    by_cases hip : r.ip = ip
    · have hown := ha.own h (h'.later htt) h1 hip
      have h1' : Timed1 t' r := ⟨by omega, h1.2⟩
      have := ih (h.check h1 m g) (h'.check h1' m g') (Nat.le_refl _) (Or.inl (by
        rw [check_perIp, check_perIp, hown, lookup_set, lookup_set, if_pos hip.symm, if_pos hip.symm])) h2
      simp only [limit, hip, List.filter_cons, decide_true, if_true, List.map_cons]
      rw [← hip] at this ⊢
      rw [this, overOwn_eq, overOwn_eq, hown]
    · have := ih (h.check h1 m g) h' (by omega) (by
        unfold Agree
        rw [check_perIp, lookup_set, if_neg (fun e => hip e.symm), lookup_drop h.nodup]
        rcases ha with ha | ⟨ha, s, hs, hst⟩
        · rw [ha]
          cases hl : lookupIp rl'.perIp ip with
          | none => exact Or.inl rfl
          | some s =>
            by_cases hk : r.rd.sweep ip - s.start < SECOND
            · left; simp [Option.filter, hk]
            · right; have := second_pos; exact ⟨by simp [Option.filter, hk], s, rfl, by omega⟩
        · right; exact ⟨by rw [ha]; rfl, s, hs, by omega⟩) h2
      simp only [limit, List.filter_cons, hip, decide_false, Bool.false_eq_true, if_false]
      exact this

end Ruroco
