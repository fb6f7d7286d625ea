import Verif.Lemmas.Rate
import Verif.Spec.Terms.Rate

/-!
# C19, C20, C21, C22: rate limiter and error throttle

`limit m g rl reqs` runs the limiter over a sequence of requests (per-source limit `m`, global limit `g`) and pairs each request with its
verdict. `Timed t reqs`: arrivals and clock readings are monotonic, starting at `t`. The decision time of a request for its own limit is its
reading `ipElapsed`, for the global limit `globalElapsed`.
-/

namespace Ruroco

open Spec (Req Timed limit admitted overOwn overGlobal)

theorem countP_admitted_le {m g : Nat} {rl : RateLimiter} {reqs : List Req} {ip : Ip} {p : Req × Except Err Unit → Bool} :
    (limit m g rl reqs).1.countP (fun x => decide (x.1.ip = ip) && admitted x && p x) ≤
      (limit m g rl reqs).1.countP (fun x => decide (x.1.ip = ip) && !overOwn x && p x) := by
  apply List.countP_mono_left
  intro x _
  simp only [Bool.and_eq_true, decide_eq_true_eq]
  rintro ⟨⟨h1, h2⟩, h3⟩
  refine ⟨⟨h1, ?_⟩, h3⟩
  unfold admitted at h2
  unfold overOwn
  split at h2
  · rename_i he; rw [he]; rfl
  · cases h2

/-- **C19a.** In any second `[T, T + 1 s)`, at most twice the per-source limit of requests of one source are admitted (a limit of 0 acts like 1). -/
theorem C19_own_limit_per_second (m g t0 : Nat) (reqs : List Req) (ht : Timed t0 reqs) (ip : Ip) (T : Nat) :
    (limit m g (RateLimiter.new t0) reqs).1.countP
      (fun x => decide (x.1.ip = ip) && admitted x && decide (T ≤ x.1.rd.ipElapsed ∧ x.1.rd.ipElapsed < T + 1000000000)) ≤ 2 * max m 1 := by
  refine Nat.le_trans countP_admitted_le (Nat.le_trans (own_bound reqs (Sane.new t0) ht) ?_)
  exact Nat.le_trans (roomE_le _ _ _ _) (room_le _ _ _ _)

/-- **C19b.** In any second, at most twice the global limit of requests are admitted. -/
theorem C19_global_limit_per_second (m g t0 : Nat) (reqs : List Req) (ht : Timed t0 reqs) (T : Nat) :
    (limit m g (RateLimiter.new t0) reqs).1.countP
      (fun x => admitted x && decide (T ≤ x.1.rd.globalElapsed ∧ x.1.rd.globalElapsed < T + 1000000000)) ≤ 2 * max g 1 := by
  refine Nat.le_trans (global_bound reqs (Sane.new t0) ht) ?_
  exact Nat.le_trans (roomE_le _ _ _ _) (room_le _ _ _ _)

/-- **C19c.** After a second without requests of the source (or after the start), at most the limit itself is admitted in the next second: if
every request of the source was finished at least a second before `T` or arrived at or after `T`. -/
theorem C19_own_limit_per_window (m g t0 : Nat) (reqs : List Req) (ht : Timed t0 reqs) (ip : Ip) (T : Nat)
    (hq : ∀ r ∈ reqs, r.ip = ip → r.rd.globalReset + 1000000000 ≤ T ∨ T ≤ r.arr) :
    (limit m g (RateLimiter.new t0) reqs).1.countP
      (fun x => decide (x.1.ip = ip) && admitted x && decide (T ≤ x.1.rd.ipElapsed ∧ x.1.rd.ipElapsed < T + 1000000000)) ≤ max m 1 :=
  Nat.le_trans countP_admitted_le (own_quiet reqs (Sane.new t0) ht (by simp [RateLimiter.new, lookupIp]) hq)

/-- **C19d.** The same for the global limit. -/
theorem C19_global_limit_per_window (m g t0 : Nat) (reqs : List Req) (ht : Timed t0 reqs) (T : Nat)
    (hstart : t0 + 1000000000 ≤ T ∨ T ≤ t0) (hq : ∀ r ∈ reqs, r.rd.globalReset + 1000000000 ≤ T ∨ T ≤ r.arr) :
    (limit m g (RateLimiter.new t0) reqs).1.countP
      (fun x => admitted x && decide (T ≤ x.1.rd.globalElapsed ∧ x.1.rd.globalElapsed < T + 1000000000)) ≤ max g 1 := by
  rcases hstart with h | h
  · exact global_quiet reqs (Sane.new t0) ht h hq
  · refine Nat.le_trans (global_bound reqs (Sane.new t0) ht) (Nat.le_trans (roomE_le _ _ _ _) ?_)
    unfold room RateLimiter.new
    dsimp only
    (repeat' split) <;> omega

/-- **C20.** After any request `r`, no source is remembered twice, and there is at most one remembered source per request of the last second
before the arrival of `r` (requests whose own check was finished less than a second before; `r` itself included). -/
theorem C20_memory_bounded (m g t0 : Nat) (reqs : List Req) (r : Req) (ht : Timed t0 (reqs ++ [r])) :
    let perIp := ((limit m g (RateLimiter.new t0) reqs).2.check r.ip m g r.rd).2.perIp
    (perIp.map Prod.fst).Nodup ∧
      (∀ ip ∈ perIp.map Prod.fst, ∃ x ∈ reqs ++ [r], x.ip = ip ∧ r.arr < x.rd.ipReset + 1000000000) ∧
      perIp.length ≤ (reqs ++ [r]).countP (fun x => decide (r.arr < x.rd.ipReset + 1000000000)) := by
  intro perIp
  obtain ⟨h1, t', h2, h3⟩ := timed_append (m := m) (g := g) ht (Sane.new t0)
  have ho := limit_opened (m := m) (g := g) reqs [] (Sane.new t0) (by intro ip s hs; simp [RateLimiter.new, lookupIp] at hs) h1
  rw [List.nil_append] at ho
  have hs := h2.check h3.1 m g
  have ho' := ho.check h2 h3.1 m g
  have hsp : 0 < 1000000000 := by decide
  have hrecent : ∀ ip ∈ perIp.map Prod.fst, ∃ x ∈ reqs ++ [r], x.ip = ip ∧ r.arr < x.rd.ipReset + 1000000000 := by
    intro ip hip
    obtain ⟨⟨ip', s⟩, hm, rfl⟩ := List.mem_map.1 hip
    have hl := (lookup_mem hs.nodup ip' s).2 hm
    obtain ⟨x, hx1, hx2, hx3⟩ := ho' ip' s hl
    rw [check_perIp, lookup_set] at hl
    split at hl
    · rename_i hr
      refine ⟨r, by simp, hr.symm, ?_⟩
      have := h3.1.2.1 r.ip
      have := h3.1.2.2
      omega
    · rw [lookup_drop h2.nodup, Option.filter_eq_some_iff] at hl
      refine ⟨x, hx1, hx2, ?_⟩
      have h4 := hl.2
      rw [decide_eq_true_eq] at h4
      have hS : SECOND = 1000000000 := rfl
      have := h3.1.2.1 ip'
      omega
  refine ⟨hs.nodup, hrecent, ?_⟩
  rw [List.countP_eq_length_filter]
  have := length_le_of_nodup_subset (l' := ((reqs ++ [r]).filter (fun x => decide (r.arr < x.rd.ipReset + 1000000000))).map (·.ip)) hs.nodup (by
    intro ip hip
    obtain ⟨x, hx1, hx2, hx3⟩ := hrecent ip hip
    exact List.mem_map.2 ⟨x, by rw [List.mem_filter]; exact ⟨hx1, decide_eq_true hx3⟩, hx2⟩)
  simpa using this

/-- **C21a.** A request is refused for its own source's sake only if at least `m` requests of that same source came in the second before. -/
theorem C21_refused_only_if_own_limit_used (m g t0 : Nat) (reqs : List Req) (r : Req) (ht : Timed t0 (reqs ++ [r]))
    (hrej : ((limit m g (RateLimiter.new t0) reqs).2.check r.ip m g r.rd).1 = .error .rateIp) :
    m ≤ reqs.countP (fun x => decide (x.ip = r.ip ∧ r.rd.ipElapsed < x.rd.ipReset + 1000000000)) := by
  obtain ⟨h1, t', h2, h3⟩ := timed_append (m := m) (g := g) ht (Sane.new t0)
  have hc := limit_counted (m := m) (g := g) reqs [] (Sane.new t0) (by intro ip s hs; simp [RateLimiter.new, lookupIp] at hs) h1
  rw [List.nil_append] at hc
  generalize (limit m g (RateLimiter.new t0) reqs).2 = rl at *
  cases hv : ((rl.ownSlot r.ip r.rd).bump m r.rd.ipElapsed r.rd.ipReset).1 with
  | true => rw [(check_global hv).1] at hrej; split at hrej <;> cases hrej
  | false =>
    rcases bump_cases (rl.ownSlot r.ip r.rd) m r.rd.ipElapsed r.rd.ipReset with ⟨h4, hb⟩ | ⟨h4, h5, hb⟩ | ⟨h4, h5, hb⟩
    · rw [hb] at hv; cases hv
    · refine Nat.le_trans h5 ?_
      generalize ho : rl.ownSlot r.ip r.rd = o at *
      unfold RateLimiter.ownSlot at ho
      rw [lookup_drop h2.nodup] at ho
      cases hf : (lookupIp rl.perIp r.ip).filter (fun s => decide (r.rd.sweep r.ip - s.start < SECOND)) with
      | none => rw [hf] at ho; subst ho; exact Nat.zero_le _
      | some s' =>
        rw [hf] at ho
        simp only [Option.getD_some] at ho
        subst ho
        rw [Option.filter_eq_some_iff] at hf
        refine Nat.le_trans (hc _ _ hf.1) (List.countP_mono_left ?_)
        intro x _
        simp only [decide_eq_true_eq]
        rintro ⟨hx1, hx2⟩
        refine ⟨hx1, ?_⟩
        simp only [SECOND] at h4
        omega
    · rw [hb] at hv; cases hv

/-- **C21b.** A request is refused for the sake of the global limit only if at least `g` requests were *admitted* in the second before; so
requests refused by either limit use up no global budget. -/
theorem C21_refused_only_if_global_limit_used (m g t0 : Nat) (reqs : List Req) (r : Req) (ht : Timed t0 (reqs ++ [r]))
    (hrej : ((limit m g (RateLimiter.new t0) reqs).2.check r.ip m g r.rd).1 = .error .rateGlobal) :
    g ≤ (limit m g (RateLimiter.new t0) reqs).1.countP (fun x => admitted x && decide (r.rd.globalElapsed < x.1.rd.globalReset + 1000000000)) := by
  obtain ⟨h1, t', h2, h3⟩ := timed_append (m := m) (g := g) ht (Sane.new t0)
  have hc := limit_countedG (m := m) (g := g) reqs [] (Sane.new t0) (by simp [CountedG, RateLimiter.new]) h1
  rw [List.nil_append] at hc
  generalize (limit m g (RateLimiter.new t0) reqs).2 = rl at *
  cases hv : ((rl.ownSlot r.ip r.rd).bump m r.rd.ipElapsed r.rd.ipReset).1 with
  | false => rw [(check_own hv).1] at hrej; cases hrej
  | true =>
    rw [(check_global hv).1] at hrej
    rcases bump_cases rl.global g r.rd.globalElapsed r.rd.globalReset with ⟨h4, hb⟩ | ⟨h4, h5, hb⟩ | ⟨h4, h5, hb⟩
    · rw [hb] at hrej; simp at hrej
    · refine Nat.le_trans h5 (Nat.le_trans hc (List.countP_mono_left ?_))
      intro x _
      simp only [Bool.and_eq_true, decide_eq_true_eq]
      rintro ⟨hx1, hx2⟩
      refine ⟨hx1, ?_⟩
      simp only [SECOND] at h4
      omega
    · rw [hb] at hrej; simp at hrej

/-- **C21c.** Other sources do not matter: whether the requests of `ip` are refused for their own source's sake is the same as if only those
requests had been made (whatever the global limit). -/
theorem C21_other_sources_irrelevant (m g g' t0 : Nat) (reqs : List Req) (ht : Timed t0 reqs) (ip : Ip) :
    ((limit m g (RateLimiter.new t0) reqs).1.filter (fun x => decide (x.1.ip = ip))).map overOwn =
      (limit m g' (RateLimiter.new t0) (reqs.filter (fun r => decide (r.ip = ip)))).1.map overOwn :=
  independent ip reqs (Sane.new t0) (Sane.new t0) (Nat.le_refl _) (Or.inl rfl) ht

/-- **C21d.** Every refusal has one of the two reasons above. -/
theorem C21_no_other_refusal (rl : RateLimiter) (m g : Nat) (ip : Ip) (rd : Readings) :
    (rl.check ip m g rd).1 = .ok () ∨ (rl.check ip m g rd).1 = .error .rateIp ∨ (rl.check ip m g rd).1 = .error .rateGlobal := by
  cases hv : ((rl.ownSlot ip rd).bump m rd.ipElapsed rd.ipReset).1 with
  | false => exact Or.inr (Or.inl (check_own hv).1)
  | true =>
    rw [(check_global hv).1]
    split
    · exact Or.inl rfl
    · exact Or.inr (Or.inr rfl)

/-! ## Concrete sequences -/

def exReq (ip : Nat) (t : Nat) : Req := ⟨.v4 (BitVec.ofNat 32 ip), t, ⟨fun _ => t, t, t, t, t, t⟩⟩

/-- Limit 2. The window of source 1 is opened at time 0 by a request decided 1 ns later; two more requests come when it is over. The fifth request
of source 1 is refused, and so is the last request, which is over the global limit 4. -/
def exReqs : List Req :=
  [⟨.v4 1, 0, ⟨fun _ => 0, 0, 1, 1, 1, 1⟩⟩, exReq 1 2, exReq 1 1000000000, exReq 1 1000000000, exReq 1 1000000000, exReq 2 1005000000, exReq 2 1006000000,
    exReq 3 1007000000]

example : Timed 0 exReqs := by
  simp [Timed, exReqs, exReq]

example : (limit 2 4 (RateLimiter.new 0) exReqs).1.map (·.2) =
    [.ok (), .ok (), .ok (), .ok (), .error .rateIp, .ok (), .ok (), .error .rateGlobal] := by decide +kernel

/-- The bound `2 * m` of C19a is attained: with limit 2, four requests of one source are admitted within one second. -/
example : (limit 2 4 (RateLimiter.new 0) exReqs).1.countP
    (fun x => decide (x.1.ip = .v4 1) && admitted x && decide (1 ≤ x.1.rd.ipElapsed ∧ x.1.rd.ipElapsed < 1 + 1000000000)) = 4 := by
  decide +kernel

/-! ## C22: error throttle -/

theorem log_cases (t : ErrorThrottle) (now : Nat) :
    t.log now = (none, ⟨t.lastLog, t.suppressed + 1⟩) ∨ t.log now = (some t.suppressed, ⟨some now, 0⟩) := by
  unfold ErrorThrottle.log
  simp only
  by_cases h : (!match t.lastLog with | some last => decide (now - last ≥ LOG_INTERVAL) | none => true) = true
  · exact Or.inl (if_pos h)
  · exact Or.inr (if_neg h)

theorem throttle_spacing (times : List Nat) (t : ErrorThrottle) :
    (∀ l, t.lastLog = some l → ∀ x ∈ (throttle t times).1, l + LOG_INTERVAL ≤ x.1) ∧
      (throttle t times).1.Pairwise (fun a b => a.1 + LOG_INTERVAL ≤ b.1) := by
  induction times generalizing t with
  | nil => simp [throttle]
  | cons now rest ih =>
    have hpos : 0 < LOG_INTERVAL := by decide
    unfold throttle
    simp only [ErrorThrottle.log]
    cases hl : t.lastLog with
    | none =>
      simp only [Bool.not_true, Bool.false_eq_true, if_false]
      obtain ⟨h1, h2⟩ := ih ⟨some now, 0⟩
      refine ⟨by simp, ?_⟩
      rw [List.singleton_append, List.pairwise_cons]
      exact ⟨fun x hx => h1 now rfl x hx, h2⟩
    | some last =>
      by_cases hd : now - last ≥ LOG_INTERVAL
      · simp only [hd, decide_true, Bool.not_true, Bool.false_eq_true, if_false]
        obtain ⟨h1, h2⟩ := ih ⟨some now, 0⟩
        refine ⟨?_, ?_⟩
        · intro l hl x hx
          cases hl
          rw [List.singleton_append, List.mem_cons] at hx
          rcases hx with rfl | hx
          · simp only; omega
          · have := h1 now rfl x hx; omega
        · rw [List.singleton_append, List.pairwise_cons]
          exact ⟨fun x hx => h1 now rfl x hx, h2⟩
      · simp only [hd, decide_false, Bool.not_false, if_true]
        obtain ⟨h1, h2⟩ := ih ⟨some last, t.suppressed + 1⟩
        refine ⟨?_, by simpa using h2⟩
        intro l hl' x hx
        cases hl'
        exact h1 _ rfl x (by simpa using hx)

/-- **C22a.** Any two error lines are at least five seconds apart, whatever the times of the failures. -/
theorem C22_lines_five_seconds_apart (t : ErrorThrottle) (times : List Nat) :
    (throttle t times).1.Pairwise (fun a b => a.1 + 5000000000 ≤ b.1) := (throttle_spacing times t).2

/-- **C22b.** The first failure is reported at once. -/
theorem C22_first_is_reported (now : Nat) (rest : List Nat) : ∃ lines, (throttle ⟨none, 0⟩ (now :: rest)).1 = (now, 0) :: lines := by
  exact ⟨_, rfl⟩

/-- **C22c.** No failure is lost: failures so far = error lines + failures they report as suppressed + failures still to be reported. -/
theorem C22_nothing_lost (t : ErrorThrottle) (times : List Nat) :
    t.suppressed + times.length =
      (throttle t times).1.length + ((throttle t times).1.map Prod.snd).sum + (throttle t times).2.suppressed := by
  induction times generalizing t with
  | nil => simp [throttle]
  | cons now rest ih =>
    unfold throttle
    have := ih (t.log now).2
    rcases log_cases t now with h | h <;> rw [h] at this ⊢
    · simp only [List.nil_append, List.length_cons] at this ⊢
      omega
    · simp only [List.singleton_append, List.length_cons, List.map_cons, List.sum_cons] at this ⊢
      omega

/-- **C22d.** A failure at least five seconds after the last line is reported at once. -/
theorem C22_reported_when_due (t : ErrorThrottle) (now last : Nat) (h : t.lastLog = some last) (hd : last + 5000000000 ≤ now) :
    (t.log now).1 = some t.suppressed := by
  unfold ErrorThrottle.log
  have : now - last ≥ LOG_INTERVAL := by have : LOG_INTERVAL = 5000000000 := rfl; omega
  simp [h, this]

example : (throttle ⟨none, 0⟩ [0, 1000000000, 4999999999, 5000000000, 5000000001]) = ([(0, 0), (5000000000, 2)], ⟨some 5000000000, 1⟩) := by
  decide +kernel

end Ruroco
