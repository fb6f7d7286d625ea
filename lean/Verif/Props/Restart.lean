import Verif.Spec.Restart
import Verif.Props.History
import Verif.Spec.Terms.Restart

/-!
# C106: services come back by themselves

/repo/src/server/listener.rs:79-82 gives up on a socket that fails and relies on systemd to bring the server back. systemd does, but only five times in ten seconds.
-/

namespace Ruroco

open Spec

/-- **C106**: how both services are started again: always, after 100 ms, at most five times in ten seconds. -/
theorem C106_policy : serverUnit.policy = unitPolicy ∧ commanderUnit.policy = unitPolicy := by decide +kernel

theorem serverLasts_able {cfg : ServerCfg} {m : Nat → World × StartEnv} {t : Nat} (h : Able cfg m t) : serverLasts cfg m t = none := by
  obtain ⟨s, hs⟩ := h
  unfold serverLasts
  rw [hs]

theorem serverLasts_unable {cfg : ServerCfg} {m : Nat → World × StartEnv} {t : Nat} (h : ¬ Able cfg m t) : serverLasts cfg m t = some 0 := by
  unfold serverLasts
  rcases hx : (Server.create cfg (m t).2 (m t).1).1 with s | e | _
  · exact absurd ⟨s, hx⟩ h
  · rfl
  · rfl

theorem test_since {l : StartLimit} {b : Nat} (h : l.since = some b) (t : Nat) :
    l.test unitPolicy t = if b + 10000 < t then some ⟨some t, 1⟩ else if l.count < 5 then some ⟨some b, l.count + 1⟩ else none := by
  unfold StartLimit.test
  rw [h]
  rfl

theorem test_fresh {s : Service} {t : Nat} (h : Fresh s t) : s.limit.test unitPolicy t = some ⟨some t, 1⟩ := by
  cases hs : s.limit.since with
  | none => unfold StartLimit.test; rw [hs]
  | some b => rw [test_since hs, if_pos (h.quiet b hs)]

/-- The service after `i + 1` starts that all failed. -/
theorem failed_starts {cfg : ServerCfg} {m : Nat → World × StartEnv} {s : Service} {t : Nat} (h : Fresh s t) (i : Nat) (hi : i < 5) (hno : ∀ j ≤ i, ¬ Able cfg m (t + 100 * j)) :
    (s.after unitPolicy (serverLasts cfg m) (i + 1)).phase = .due (t + 100 * (i + 1)) ∧ (s.after unitPolicy (serverLasts cfg m) (i + 1)).limit = ⟨some t, i + 1⟩ := by
  induction i with
  | zero =>
    have h0 := serverLasts_unable (hno 0 (Nat.le_refl 0))
    rw [Nat.mul_zero, Nat.add_zero] at h0
    show (s.next unitPolicy (serverLasts cfg m)).phase = _ ∧ _
    have hn : s.next unitPolicy (serverLasts cfg m) = ⟨.due (t + 0 + 100), ⟨some t, 1⟩, t :: s.starts⟩ := by
      unfold Service.next
      rw [h.due]
      simp only
      rw [test_fresh h]
      simp only
      rw [h0]
      rfl
    exact ⟨by rw [hn], by show (s.next _ _).limit = _; rw [hn]⟩
  | succ i ih =>
    obtain ⟨h1, h2⟩ := ih (by omega) (fun j hj => hno j (by omega))
    have h0 := serverLasts_unable (hno (i + 1) (Nat.le_refl _))
    generalize hs' : s.after unitPolicy (serverLasts cfg m) (i + 1) = s' at h1 h2
    have hn : s.after unitPolicy (serverLasts cfg m) (i + 1 + 1) = ⟨.due (t + 100 * (i + 1) + 0 + 100), ⟨some t, i + 1 + 1⟩, (t + 100 * (i + 1)) :: s'.starts⟩ := by
      show (s.after unitPolicy (serverLasts cfg m) (i + 1)).next _ _ = _
      rw [hs']
      unfold Service.next
      rw [h1]
      simp only
      have ht : s'.limit.test unitPolicy (t + 100 * (i + 1)) = some ⟨some t, i + 1 + 1⟩ := by
        rw [h2, test_since rfl]
        simp only
        rw [if_neg (by omega), if_pos (by omega)]
      rw [ht]
      simp only
      rw [h0]
      rfl
    rw [hn]
    exact ⟨rfl, rfl⟩

theorem after_stays {p : RestartPolicy} {lasts : Nat → Option Nat} {s : Service} {n : Nat} {x : Phase} (hx : ∀ t, x ≠ .due t) (h : (s.after p lasts n).phase = x) (k : Nat) :
    (s.after p lasts (n + k)).phase = x := by
  induction k with
  | zero => exact h
  | succ k ih =>
    show ((s.after p lasts (n + k)).next p lasts).phase = x
    unfold Service.next
    rw [ih]
    cases x with
    | due t => exact absurd rfl (hx t)
    | up t => exact ih
    | down t => exact ih

/-- Up at the first of the five starts that works. -/
theorem up_at {cfg : ServerCfg} {m : Nat → World × StartEnv} {s : Service} {t : Nat} (h : Fresh s t) (i : Nat) (hi : i < 5) (hno : ∀ j < i, ¬ Able cfg m (t + 100 * j))
    (hok : Able cfg m (t + 100 * i)) : (s.after unitPolicy (serverLasts cfg m) (i + 1)).phase = .up (t + 100 * i) := by
  have h0 := serverLasts_able hok
  cases i with
  | zero =>
    rw [Nat.mul_zero, Nat.add_zero] at h0
    show (s.next unitPolicy (serverLasts cfg m)).phase = _
    unfold Service.next
    rw [h.due]
    simp only
    rw [test_fresh h]
    simp only
    rw [h0]
    rfl
  | succ i =>
    obtain ⟨h1, h2⟩ := failed_starts h i (by omega) (fun j hj => hno j (by omega))
    show ((s.after unitPolicy (serverLasts cfg m) (i + 1)).next _ _).phase = _
    generalize s.after unitPolicy (serverLasts cfg m) (i + 1) = s' at h1 h2
    unfold Service.next
    rw [h1]
    simp only
    have ht : s'.limit.test unitPolicy (t + 100 * (i + 1)) = some ⟨some t, i + 1 + 1⟩ := by
      rw [h2, test_since rfl]
      simp only
      rw [if_neg (by omega), if_pos (by omega)]
    rw [ht]
    simp only
    rw [h0]

theorem down_at {cfg : ServerCfg} {m : Nat → World × StartEnv} {s : Service} {t : Nat} (h : Fresh s t) (hno : ∀ i < 5, ¬ Able cfg m (t + 100 * i)) :
    (s.after unitPolicy (serverLasts cfg m) 6).phase = .down (t + 500) := by
  obtain ⟨h1, h2⟩ := failed_starts h 4 (by omega) (fun j hj => hno j (by omega))
  show ((s.after unitPolicy (serverLasts cfg m) (4 + 1)).next _ _).phase = _
  generalize s.after unitPolicy (serverLasts cfg m) (4 + 1) = s' at h1 h2
  unfold Service.next
  rw [h1]
  simp only
  have ht : s'.limit.test unitPolicy (t + 100 * (4 + 1)) = none := by
    rw [h2, test_since rfl]
    simp only
    rw [if_neg (by omega), if_neg (by omega)]
  rw [ht]

/-- The first index below `n` with a property. -/
theorem first_below {P : Nat → Prop} (n : Nat) (h : ∃ i < n, P i) : ∃ i < n, P i ∧ ∀ j < i, ¬ P j := by
  induction n with
  | zero => obtain ⟨i, hi, _⟩ := h; omega
  | succ n ih =>
    by_cases hx : ∃ i < n, P i
    · obtain ⟨i, hi, h1, h2⟩ := ih hx
      exact ⟨i, by omega, h1, h2⟩
    · obtain ⟨i, hi, hp⟩ := h
      refine ⟨i, hi, hp, fun j hj hpj => hx ⟨j, by omega, hpj⟩⟩

/-- **C106**, exactly when the server comes back after it has ended at time `t - 100` ms (or at boot, at time `t`): if it could start at one of the five moments `t`, `t + 100`, …, `t + 400`. -/
theorem C106_comes_back_iff (cfg : ServerCfg) (m : Nat → World × StartEnv) (s : Service) (t : Nat) (h : Fresh s t) :
    ComesUp serverUnit.policy (serverLasts cfg m) s ↔ ∃ i < 5, Able cfg m (t + 100 * i) := by
  rw [C106_policy.1]
  constructor
  · rintro ⟨n, t', hn⟩
    refine Classical.byContradiction (fun hx => ?_)
    have hd := down_at h (fun i hi ha => hx ⟨i, hi, ha⟩)
    have h1 := after_stays (by exact nofun) hd n
    have h2 := after_stays (by exact nofun) hn 6
    rw [Nat.add_comm, h2] at h1
    cases h1
  · intro hx
    obtain ⟨i, hi, hok, hno⟩ := first_below 5 hx
    exact ⟨i + 1, _, up_at h i hi hno hok⟩

/-- **C106**: a server that has ended comes back as soon as its start succeeds, if the trouble is over within 400 ms. Missing: trouble that takes longer, see `C106_given_up`. -/
theorem C106_comes_back_partial (cfg : ServerCfg) (m : Nat → World × StartEnv) (s : Service) (t d : Nat) (h : Fresh s t) (hd : d ≤ 400) (hok : ∀ t' ≥ t + d, Able cfg m t') :
    ∃ n t', (s.after serverUnit.policy (serverLasts cfg m) n).phase = .up t' ∧ t' < t + d + 100 := by
  rw [C106_policy.1]
  have hx : ∃ i < 5, Able cfg m (t + 100 * i) := ⟨4, by omega, hok _ (by omega)⟩
  obtain ⟨i, hi, ha, hno⟩ := first_below 5 hx
  refine ⟨i + 1, _, up_at h i hi hno ha, ?_⟩
  refine Nat.lt_of_not_le (fun hle => ?_)
  cases i with
  | zero => omega
  | succ i => exact hno i (by omega) (hok _ (by omega))

/-- **C106** fails: when a server has ended and cannot be started during the next half second, systemd gives it up, although it could be started ever after. -/
theorem C106_given_up (cfg : ServerCfg) (m : Nat → World × StartEnv) (s : Service) (t : Nat) (h : Fresh s t) (hno : ∀ t', t ≤ t' → t' < t + 500 → ¬ Able cfg m t') :
    ∀ n ≥ 6, (s.after serverUnit.policy (serverLasts cfg m) n).phase = .down (t + 500) := by
  intro n hn
  rw [C106_policy.1]
  have := after_stays (by exact nofun) (down_at h (fun i hi => hno _ (by omega) (by omega))) (n - 6)
  rwa [Nat.add_sub_cancel' hn] at this

/-! ## What makes systemd give up -/

/-- The starts since the interval began are the last ones. -/
def StartsCounted (s : Service) : Prop :=
  s.starts = [] ∨ ∃ b, s.limit.since = some b ∧ 1 ≤ s.limit.count ∧ s.limit.count ≤ s.starts.length ∧ ∀ x ∈ s.starts.take s.limit.count, b ≤ x

/-- Nothing was started later than now. -/
def Ordered (s : Service) : Prop := ∀ x ∈ s.starts, match s.phase with | .due t => x ≤ t | .up t => x ≤ t | .down t => x ≤ t

theorem counted_next {lasts : Nat → Option Nat} {s : Service} (hq : s.starts = [] → ∀ t, s.phase = .due t → ∀ b, s.limit.since = some b → b + 10000 < t) (h : StartsCounted s) (ho : Ordered s) :
    StartsCounted (s.next unitPolicy lasts) ∧ Ordered (s.next unitPolicy lasts) ∧
      ∀ t t0, s.phase = .due t0 → (s.next unitPolicy lasts).phase = .down t → 5 ≤ (s.starts.filter (fun x => decide (t - 10000 ≤ x ∧ x ≤ t))).length := by
  rcases s with ⟨ph, l, st⟩
  cases ph with
  | up t => exact ⟨h, ho, nofun⟩
  | down t => exact ⟨h, ho, nofun⟩
  | due t =>
    unfold Service.next
    simp only
    have hle : ∀ x ∈ st, x ≤ t := ho
    cases ht : l.test unitPolicy t with
    | none =>
      refine ⟨h, hle, ?_⟩
      rintro t' t0 _ hd
      cases hd
      cases hs : l.since with
      | none => unfold StartLimit.test at ht; rw [hs] at ht; cases ht
      | some b =>
        rw [test_since hs] at ht
        split at ht
        · cases ht
        · rename_i hlt
          split at ht
          · cases ht
          · rename_i hc
            rcases h with h | ⟨b', hb', hpos, hlen, hall⟩
            · exact absurd (hq h t rfl b hs) (by omega)
            · simp only at hb' hpos hlen hall
              rw [hs] at hb'
              cases hb'
              have h5 : (st.take l.count).length = l.count := by rw [List.length_take]; omega
              have hsub : (st.take l.count).length ≤ (st.filter (fun x => decide (t - 10000 ≤ x ∧ x ≤ t))).length := by
                have e : st.take l.count = (st.take l.count).filter (fun x => decide (t - 10000 ≤ x ∧ x ≤ t)) := by
                  symm
                  rw [List.filter_eq_self]
                  intro x hx
                  have h1 := hall x hx
                  have h2 := hle x (List.mem_of_mem_take hx)
                  rw [decide_eq_true_iff]
                  omega
                rw [e]
                exact ((List.take_sublist _ st).filter _).length_le
              omega
    | some l' =>
      have hcount : ∃ b, l'.since = some b ∧ 1 ≤ l'.count ∧ l'.count ≤ (t :: st).length ∧ ∀ x ∈ (t :: st).take l'.count, b ≤ x := by
        cases hs : l.since with
        | none =>
          unfold StartLimit.test at ht
          rw [hs] at ht
          cases ht
          exact ⟨t, rfl, Nat.le_refl _, by simp, by simp⟩
        | some b =>
          rw [test_since hs] at ht
          split at ht
          · cases ht
            exact ⟨t, rfl, Nat.le_refl _, by simp, by simp⟩
          · rename_i hlt
            split at ht
            · cases ht
              rcases h with h | ⟨b', hb', hpos, hlen, hall⟩
              · exact absurd (hq h t rfl b hs) (by omega)
              · simp only at hb' hpos hlen hall
                rw [hs] at hb'
                cases hb'
                refine ⟨b, rfl, by simp only; omega, by simp only [List.length_cons]; omega, ?_⟩
                intro x hx
                rw [List.take_succ_cons] at hx
                rcases List.mem_cons.1 hx with rfl | hx
                · cases hc : st.take l.count with
                  | nil =>
                    rw [List.take_eq_nil_iff] at hc
                    rcases hc with hc | hc
                    · omega
                    · rw [hc] at hlen
                      simp only [List.length_nil] at hlen
                      omega
                  | cons y ys =>
                    have h1 := hall y (by rw [hc]; exact List.mem_cons_self ..)
                    have h2 := hle y (List.mem_of_mem_take (by rw [hc]; exact List.mem_cons_self ..))
                    omega
                · exact hall x hx
            · cases ht
      cases lasts t with
      | none => exact ⟨Or.inr hcount, by intro x hx; rcases List.mem_cons.1 hx with rfl | hx; exact Nat.le_refl _; exact hle x hx, nofun⟩
      | some r =>
        refine ⟨Or.inr hcount, ?_, ?_⟩
        · intro x hx
          have : x ≤ t := by
            rcases List.mem_cons.1 hx with rfl | hx
            · exact Nat.le_refl _
            · exact hle x hx
          show x ≤ t + r + 100
          omega
        · rintro t' t0 _ hd
          cases hd

theorem counted_after {lasts : Nat → Option Nat} {s : Service} {t : Nat} (h : Fresh s t) (n : Nat) :
    (StartsCounted (s.after unitPolicy lasts n) ∧ Ordered (s.after unitPolicy lasts n) ∧
      ((s.after unitPolicy lasts n).starts = [] → ∀ t, (s.after unitPolicy lasts n).phase = .due t → ∀ b, (s.after unitPolicy lasts n).limit.since = some b → b + 10000 < t)) ∧
    ∀ t', (s.after unitPolicy lasts n).phase = .down t' → 5 ≤ ((s.after unitPolicy lasts n).starts.filter (fun x => decide (t' - 10000 ≤ x ∧ x ≤ t'))).length := by
  induction n with
  | zero =>
    refine ⟨⟨Or.inl h.first, ?_, ?_⟩, ?_⟩
    · intro x hx
      rw [show s.after unitPolicy lasts 0 = s from rfl, h.first] at hx
      cases hx
    · intro _ t' ht'
      rw [show s.after unitPolicy lasts 0 = s from rfl, h.due] at ht'
      cases ht'
      exact h.quiet
    · intro t' ht'
      rw [show s.after unitPolicy lasts 0 = s from rfl, h.due] at ht'
      cases ht'
  | succ n ih =>
    show (StartsCounted ((s.after unitPolicy lasts n).next unitPolicy lasts) ∧ Ordered ((s.after unitPolicy lasts n).next unitPolicy lasts) ∧
      (((s.after unitPolicy lasts n).next unitPolicy lasts).starts = [] → ∀ t, ((s.after unitPolicy lasts n).next unitPolicy lasts).phase = .due t →
        ∀ b, ((s.after unitPolicy lasts n).next unitPolicy lasts).limit.since = some b → b + 10000 < t)) ∧
      ∀ t', ((s.after unitPolicy lasts n).next unitPolicy lasts).phase = .down t' →
        5 ≤ (((s.after unitPolicy lasts n).next unitPolicy lasts).starts.filter (fun x => decide (t' - 10000 ≤ x ∧ x ≤ t'))).length
    generalize s.after unitPolicy lasts n = s1 at ih
    obtain ⟨⟨h1, h2, h3⟩, h4⟩ := ih
    obtain ⟨k1, k2, k3⟩ := counted_next (lasts := lasts) h3 h1 h2
    refine ⟨⟨k1, k2, ?_⟩, ?_⟩
    · intro he t' ht'
      rcases s1 with ⟨ph, l, st⟩
      cases ph with
      | up _ => cases ht'
      | down _ => cases ht'
      | due t0 =>
        unfold Service.next at he ht'
        simp only at he ht'
        cases hx : l.test unitPolicy t0 with
        | none => rw [hx] at ht'; cases ht'
        | some l' =>
          rw [hx] at he
          simp only at he
          cases hy : lasts t0 with
          | none => rw [hy] at he; cases he
          | some r => rw [hy] at he; cases he
    · intro t' ht'
      rcases s1 with ⟨ph, l, st⟩
      cases ph with
      | up _ => cases ht'
      | down t0 => exact h4 t' ht'
      | due t0 =>
        refine Nat.le_trans (k3 t' t0 rfl ht') ?_
        unfold Service.next
        simp only
        cases hx : l.test unitPolicy t0 with
        | none => exact Nat.le_refl _
        | some l' =>
          simp only
          cases hy : lasts t0 with
          | none => exact ((List.sublist_cons_self _ _).filter _).length_le
          | some r => exact ((List.sublist_cons_self _ _).filter _).length_le

/-- **C106**: whatever the processes do, systemd gives a service up only if it has started it five times in the last ten seconds. Both units. -/
theorem C106_five_in_ten_seconds (u : UnitFile) (hu : u = serverUnit ∨ u = commanderUnit) (lasts : Nat → Option Nat) (s : Service) (t : Nat) (h : Fresh s t) (n t' : Nat)
    (hd : (s.after u.policy lasts n).phase = .down t') : 5 ≤ ((s.after u.policy lasts n).starts.filter (fun x => decide (t' - 10000 ≤ x ∧ x ≤ t'))).length := by
  have hp : u.policy = unitPolicy := by
    rcases hu with rfl | rfl
    · exact C106_policy.1
    · exact C106_policy.2
  rw [hp] at hd ⊢
  exact (counted_after h n).2 t' hd

/-! ## Processes that last -/

/-- The starts are more than two seconds apart, and so is the next one that is due. -/
def Spaced (s : Service) : Prop := (∀ t, s.phase ≠ .down t) ∧ (s.starts = [] ∨ ∃ b, s.limit.since = some b ∧ ∀ t, s.phase = .due t → b + 2001 * s.limit.count ≤ t)

theorem spaced_next {lasts : Nat → Option Nat} (hl : ∀ t r, lasts t = some r → 1900 < r) {s : Service}
    (hq : s.starts = [] → ∀ t, s.phase = .due t → ∀ b, s.limit.since = some b → b + 10000 < t) (h : Spaced s) : Spaced (s.next unitPolicy lasts) := by
  rcases s with ⟨ph, l, st⟩
  cases ph with
  | up t => exact h
  | down t => exact absurd rfl (h.1 t)
  | due t =>
    have ht : ∃ l', l.test unitPolicy t = some l' ∧ ∃ b, l'.since = some b ∧ b + 2001 * l'.count ≤ t + 2001 := by
      cases hs : l.since with
      | none =>
        refine ⟨⟨some t, 1⟩, ?_, t, rfl, by simp only; omega⟩
        unfold StartLimit.test
        rw [hs]
      | some b =>
        rw [test_since hs]
        by_cases hlt : b + 10000 < t
        · rw [if_pos hlt]
          exact ⟨_, rfl, t, rfl, by simp only; omega⟩
        · rw [if_neg hlt]
          rcases h.2 with h2 | ⟨b', hb', h2⟩
          · exact absurd (hq h2 t rfl b hs) hlt
          · have h3 := h2 t rfl
            simp only at h3 hb'
            rw [hs] at hb'
            cases hb'
            rw [if_pos (by omega)]
            exact ⟨_, rfl, b, rfl, by simp only; omega⟩
    obtain ⟨l', ht, b, hb, hle⟩ := ht
    unfold Service.next
    simp only
    rw [ht]
    simp only
    cases hx : lasts t with
    | none => exact ⟨nofun, Or.inr ⟨b, hb, nofun⟩⟩
    | some r =>
      have hr := hl t r hx
      refine ⟨nofun, Or.inr ⟨b, hb, ?_⟩⟩
      intro t' ht'
      have e : t + r + 100 = t' := by
        have : Phase.due (t + r + 100) = .due t' := ht'
        cases this
        rfl
      simp only
      omega

/-- **C106**: a service whose processes last two seconds each, counting the 100 ms before the next one, is never given up. Both units. -/
theorem C106_never_given_up (u : UnitFile) (hu : u = serverUnit ∨ u = commanderUnit) (lasts : Nat → Option Nat) (hl : ∀ t r, lasts t = some r → 1900 < r) (s : Service) (t : Nat)
    (h : Fresh s t) : ¬ GivenUp u.policy lasts s := by
  have hp : u.policy = unitPolicy := by
    rcases hu with rfl | rfl
    · exact C106_policy.1
    · exact C106_policy.2
  rw [hp]
  rintro ⟨n, t', hd⟩
  have hs : Spaced (s.after unitPolicy lasts n) := by
    clear hd
    induction n with
    | zero => exact ⟨fun t' ht' => (by rw [show s.after unitPolicy lasts 0 = s from rfl, h.due] at ht'; exact nomatch ht'), Or.inl h.first⟩
    | succ n ih => exact spaced_next hl (counted_after h n).1.2.2 ih
  exact hs.1 t' hd

/-! ## A full disk -/

/-- The configuration of the examples. -/
def exRestartCfg : ServerCfg := { exServer.cfg with maxPerIp := 10 }

/-- A machine whose disk is full until time `until_`: files can be created, but nothing can be written. -/
def exFullUntil (until_ t : Nat) : World × StartEnv :=
  ({ exEmpty with clock := [some 1000, some 1000, some 1000], oracle := if t < until_ then [.ok, .err 0] else [] }, ⟨exDir, id, true, 0⟩)

/-- Just booted. -/
def exBooted : Service := ⟨.due 0, ⟨none, 0⟩, []⟩

theorem exBooted_fresh : Fresh exBooted 0 := ⟨rfl, nofun, rfl⟩

theorem exFull_able (t : Nat) : Able exRestartCfg (exFullUntil 500) t ↔ 500 ≤ t := by
  unfold Able exFullUntil
  by_cases h : t < 500
  · have : ((Server.create exRestartCfg ⟨exDir, id, true, 0⟩ { exEmpty with clock := [some 1000, some 1000, some 1000], oracle := [.ok, .err 0] }).1 matches .ok _) = false := by decide +kernel
    simp only [if_pos h]
    constructor
    · rintro ⟨s, hs⟩
      rw [hs] at this
      cases this
    · omega
  · have : ((Server.create exRestartCfg ⟨exDir, id, true, 0⟩ { exEmpty with clock := [some 1000, some 1000, some 1000], oracle := [] }).1 matches .ok _) = true := by decide +kernel
    simp only [if_neg h]
    refine ⟨fun _ => by omega, fun _ => ?_⟩
    split at this
    · rename_i s hs
      exact ⟨s, hs⟩
    · cases this

/-- **C106** is false: the disk is full for half a second while the machine starts; the server could start at any time after that, and never runs. -/
theorem C106_full_disk : ∃ (cfg : ServerCfg) (m : Nat → World × StartEnv) (s : Service) (t : Nat), Fresh s t ∧ (∀ t' ≥ t + 500, Able cfg m t') ∧ ¬ ComesUp serverUnit.policy (serverLasts cfg m) s := by
  refine ⟨exRestartCfg, exFullUntil 500, exBooted, 0, exBooted_fresh, fun t' h => (exFull_able t').2 (by omega), ?_⟩
  rw [C106_comes_back_iff _ _ _ _ exBooted_fresh]
  rintro ⟨i, hi, ha⟩
  have := (exFull_able _).1 ha
  omega

/-- Had the disk been full for 350 ms, the fifth start would have worked. -/
example : (exBooted.after serverUnit.policy (serverLasts exRestartCfg (exFullUntil 350)) 5).phase = .up 400 ∧
    (exBooted.after serverUnit.policy (serverLasts exRestartCfg (exFullUntil 350)) 5).starts = [400, 300, 200, 100, 0] := by decide +kernel

/-- A process that ends after two seconds, again and again, is started again and again. -/
example : (exBooted.after serverUnit.policy (fun _ => some 2000) 20).phase = .due 42000 := by decide +kernel

end Ruroco
