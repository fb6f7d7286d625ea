import Verif.Props.Commander

/-!
# C28: time limit of commands; C30: permissions of the commander socket
-/

namespace Ruroco

open Spec (spawns Timely NoFailures request commandText timeLimit)

attribute [local irreducible] SECOND

/-! ## C28: when a command is killed -/

theorem pollLoop_timedOut {exit : Option (Nat × Bool)} {dl : Option Nat} {rounds : List Round} {t : Nat} (h : pollLoop exit dl rounds = .timedOut t) :
    ∃ r ∈ rounds, r.now = t ∧ exitedBy exit r.waitAt = none ∧ ∃ d, dl = some d ∧ d ≤ t := by
  induction rounds with
  | nil => cases h
  | cons r rest ih =>
    unfold pollLoop at h
    split at h
    · cases h
    · split at h
      · cases h
      · rename_i he
        split at h
        · rename_i hd
          split at h
          · cases h
          · split at h
            · cases h
            · cases h
              refine ⟨r, by simp, rfl, he, ?_⟩
              cases dl with
              | none => simp at hd
              | some d => exact ⟨d, rfl, by simpa using hd⟩
        · obtain ⟨r', hr', h'⟩ := ih h
          exact ⟨r', by simp [hr'], h'⟩

/-- **C28a.** A command is killed only at a moment at or after its deadline (start + time limit), and only if it was still running at the poll
just before; a time limit whose deadline can not be represented never kills. -/
theorem C28_killed_only_after_deadline (env : ChildEnv) (timeout : Nat) (t : Nat)
    (h : pollLoop env.exit (deadlineOf env.startAt timeout) env.rounds = .timedOut t) :
    env.startAt + timeout * 1000000000 ≤ t ∧ env.startAt / 1000000000 + timeout < 2 ^ 63 ∧
      ∃ r ∈ env.rounds, r.now = t ∧ ∀ e s, env.exit = some (e, s) → r.waitAt < e := by
  obtain ⟨r, hr, hn, he, d, hd, hle⟩ := pollLoop_timedOut h
  unfold deadlineOf at hd
  have hS : SECOND = 1000000000 := by unfold SECOND; rfl
  rw [hS] at hd
  split at hd
  · rename_i hfits
    cases hd
    refine ⟨hle, hfits, r, hr, hn, ?_⟩
    intro e s hex
    unfold exitedBy at he
    rw [hex] at he
    simp only at he
    split at he
    · cases he
    · omega
  · cases hd

theorem timely_mem {δ t : Nat} {rounds : List Round} (h : Timely δ t rounds) : ∀ r ∈ rounds, r.waitAt ≤ r.now ∧ r.now ≤ r.waitAt + δ := by
  induction rounds generalizing t with
  | nil => intro r hr; cases hr
  | cons x rest ih =>
    obtain ⟨_, _, h3, h4, h5⟩ := h
    intro r hr
    rcases List.mem_cons.1 hr with rfl | hr
    · exact ⟨h3, h4⟩
    · exact ih h5 r hr

/-- **C28b (partial).** A command that ends before its deadline, by at least the time `δ` the commander may need between looking at the child and reading
the clock, is not killed. Missing: the statement for `δ = 0`, which is false of this code, see `C28_killed_although_finished`. -/
theorem C28_finished_not_killed_partial (env : ChildEnv) (timeout δ : Nat) (t0 : Nat) (htime : Timely δ t0 env.rounds) (e : Nat) (s : Bool)
    (hexit : env.exit = some (e, s)) (hearly : e + δ ≤ env.startAt + timeout * 1000000000) (t : Nat) :
    pollLoop env.exit (deadlineOf env.startAt timeout) env.rounds ≠ .timedOut t := by
  intro h
  obtain ⟨h1, _, r, hr, hn, hx⟩ := C28_killed_only_after_deadline env timeout t h
  have h2 := hx e s hexit
  have h3 := timely_mem htime r hr
  omega

/-- Polls 52.6 ms apart; at the last one, 600 µs pass between the look at the child and the clock reading. -/
def raceEnv : ChildEnv where
  startAt := 0
  exit := some (999700000, true)
  rounds := (List.range 19).map (fun i => ⟨52600000 * i, 52600000 * i, false, false, false⟩) ++ [⟨999400000, 1000000000, false, false, false⟩]
  effect := id

/-- **C28 is false at the edge**: the command finished successfully 0.3 ms before its deadline, but it is reported as timed out (and killed), because the
deadline passed between the poll and the clock reading. -/
theorem C28_killed_although_finished :
    ∃ (env : ChildEnv) (timeout e t : Nat), env.exit = some (e, true) ∧ e < env.startAt + timeout * 1000000000 ∧ NoFailures env.rounds ∧
      Timely 3000000 env.startAt env.rounds ∧ pollLoop env.exit (deadlineOf env.startAt timeout) env.rounds = .timedOut t :=
  ⟨raceEnv, 1, 999700000, 1000000000, rfl, by decide +kernel, by decide +kernel, by decide +kernel, by decide +kernel⟩

theorem pollLoop_completed {exit : Option (Nat × Bool)} {dl : Option Nat} {rounds : List Round} {s : Bool} (h : pollLoop exit dl rounds = .completed s) :
    ∃ e, exit = some (e, s) ∧ ∃ r ∈ rounds, e ≤ r.waitAt := by
  induction rounds with
  | nil => cases h
  | cons r rest ih =>
    unfold pollLoop at h
    split at h
    · cases h
    · split at h
      · rename_i s' he
        cases h
        unfold exitedBy at he
        split at he
        · rename_i e s''
          split at he
          · cases he
            exact ⟨e, rfl, r, by simp, by assumption⟩
          · cases he
        · cases he
      · split at h
        · split at h
          · cases h
          · split at h <;> cases h
        · obtain ⟨e, h1, r', h2, h3⟩ := ih h
          exact ⟨e, h1, r', by simp [h2], h3⟩

/-- **C28c.** A status is reported only if it is the one the command itself ended with. -/
theorem C28_status_is_genuine (env : ChildEnv) (timeout : Nat) (s : Bool)
    (h : pollLoop env.exit (deadlineOf env.startAt timeout) env.rounds = .completed s) : ∃ e, env.exit = some (e, s) :=
  let ⟨e, h1, _⟩ := pollLoop_completed h
  ⟨e, h1⟩

theorem pollLoop_ends {exit : Option (Nat × Bool)} {d δ t : Nat} {rounds : List Round} (ht : t ≤ d + 50000000) (htime : Timely δ t rounds)
    (hnf : NoFailures rounds) (hlong : ∃ r ∈ rounds, d ≤ r.now) :
    (∃ s, pollLoop exit (some d) rounds = .completed s) ∨
      (∃ x, pollLoop exit (some d) rounds = .timedOut x ∧ d ≤ x ∧ x ≤ d + 50000000 + 2 * δ) := by
  induction rounds generalizing t with
  | nil => obtain ⟨r, hr, _⟩ := hlong; cases hr
  | cons r rest ih =>
    obtain ⟨h1, h2, h3, h4, h5⟩ := htime
    rw [show POLL_INTERVAL = 50000000 by unfold POLL_INTERVAL; rfl] at h5
    have hr := hnf r (by simp)
    unfold pollLoop
    rw [hr.1, hr.2.1, hr.2.2]
    simp only [Bool.false_eq_true, if_false, Option.any_some, decide_eq_true_eq]
    split
    · exact Or.inl ⟨_, rfl⟩
    · by_cases hd : d ≤ r.now
      · rw [if_pos hd]
        exact Or.inr ⟨r.now, rfl, hd, by omega⟩
      · rw [if_neg hd]
        refine ih (by omega) h5 (fun r hr => hnf r (by simp [hr])) ?_
        obtain ⟨r', hr', hl⟩ := hlong
        rcases List.mem_cons.1 hr' with rfl | hr'
        · exact absurd hl hd
        · exact ⟨r', hr', hl⟩

/-- **C28d.** With a representable deadline `d` and working calls, the execution is over, or the command is killed and reaped, within one polling interval
(50 ms) and two scheduling delays `δ` after `d`, once the commander has polled past `d`. A command still running then is killed. -/
theorem C28_deadline_enforced (env : ChildEnv) (timeout δ : Nat) (hfits : env.startAt / 1000000000 + timeout < 2 ^ 63)
    (htime : Timely δ env.startAt env.rounds) (hnf : NoFailures env.rounds) (hlong : ∃ r ∈ env.rounds, env.startAt + timeout * 1000000000 ≤ r.now) :
    ((∃ s, pollLoop env.exit (deadlineOf env.startAt timeout) env.rounds = .completed s) ∨
      ∃ t, pollLoop env.exit (deadlineOf env.startAt timeout) env.rounds = .timedOut t ∧ env.startAt + timeout * 1000000000 ≤ t ∧
        t ≤ env.startAt + timeout * 1000000000 + 50000000 + 2 * δ) ∧
    (env.exit = none → ∃ t, pollLoop env.exit (deadlineOf env.startAt timeout) env.rounds = .timedOut t) := by
  have hS : SECOND = 1000000000 := by unfold SECOND; rfl
  have hd : deadlineOf env.startAt timeout = some (env.startAt + timeout * 1000000000) := by
    unfold deadlineOf
    rw [hS, if_pos hfits]
  rw [hd]
  have h := pollLoop_ends (exit := env.exit) (d := env.startAt + timeout * 1000000000) (t := env.startAt) (by omega) htime hnf hlong
  refine ⟨h, ?_⟩
  intro hne
  rcases h with ⟨s, hs⟩ | ⟨t, ht, _⟩
  · obtain ⟨e, he, _⟩ := pollLoop_completed hs
    rw [hne] at he; cases he
  · exact ⟨t, ht⟩

/-- **C28e.** With a deadline that can not be represented, nothing is killed. -/
theorem C28_no_deadline (env : ChildEnv) (timeout : Nat) (hbig : 2 ^ 63 ≤ env.startAt / 1000000000 + timeout) (t : Nat) :
    pollLoop env.exit (deadlineOf env.startAt timeout) env.rounds ≠ .timedOut t := by
  intro h
  obtain ⟨_, h2, _⟩ := C28_killed_only_after_deadline env timeout t h
  omega

/-- A command that never ends, polled every 50 ms: killed at its deadline of 1 s. -/
example : pollLoop none (deadlineOf 0 1) ((List.range 30).map (fun i => ⟨50000000 * i, 50000000 * i, false, false, false⟩)) = .timedOut 1000000000 ∧
    Timely 0 0 ((List.range 30).map (fun i => (⟨50000000 * i, 50000000 * i, false, false, false⟩ : Round))) := by decide +kernel

/-- **C28f (finding).** If polling, killing or reaping the child fails, the commander gives up on it: the child is still running and is neither killed
nor reaped. -/
theorem C28_poll_failure_leaves_child :
    ∃ (env : ChildEnv) (w w' : World) (o : Out (CommandExit × List Byte × List Byte)), env.exit = none ∧
      executeWithTimeout "/tmp/x-".toList "sleep".toList 1 (.v4 1) env w = (o, w') ∧ .spawn "sleep".toList (.v4 1) ∈ w'.log ∧ .kill ∉ w'.log ∧ .reap ∉ w'.log := by
  refine ⟨⟨0, none, [⟨0, 0, true, false, false⟩], id⟩, exCmdrWorld [], _, _, rfl, rfl, ?_⟩
  decide +kernel

/-! ## C28: capture files -/

/-- All files opened for writing are in `allowed`. -/
def Opens (allowed : List Path) (l : List Event) : Prop := ∀ p, .file .openTrunc p ∈ l → p ∈ allowed

theorem Opens.append {a : List Path} {l l' : List Event} (h : Opens a l) (h' : Opens a l') : Opens a (l ++ l') := by
  intro p hp
  rcases List.mem_append.1 hp with hp | hp
  · exact h p hp
  · exact h' p hp

theorem Opens.mono {a b : List Path} {l : List Event} (h : Opens a l) (hab : ∀ p ∈ a, p ∈ b) : Opens b l := fun p hp => hab p (h p hp)

theorem removeIgnoring_spec (p : Path) (w : World) :
    wp (removeIgnoring p) w (fun o w' => (∀ q, w'.fs q = w.fs q ∨ (q = p ∧ w'.fs q = none)) ∧ (∃ l, w'.log = w.log ++ l ∧ Opens [] l) ∧
      (o ≠ .crash → w'.fs p = none ∨ .removeFailed p ∈ w'.log.drop w.log.length) ∧ w'.umask = w.umask ∧ ∀ e, o ≠ .err e) := by
  unfold removeIgnoring removeFile
  rw [wp_bind, wp_attempt, wp_bind, wp_peek]
  cases hf : w.fs p with
  | none =>
    show _ ∧ _ ∧ _ ∧ _ ∧ ∀ e, Out.ok () ≠ .err e
    exact ⟨fun q => Or.inl rfl, ⟨[], (List.append_nil _).symm, by simp [Opens]⟩, fun _ => Or.inl hf, rfl, nofun⟩
  | some f =>
    simp only
    have hrem : ∀ (o : List Choice) q, (World.setEntry { w with log := w.log ++ [.file .remove p], oracle := o } p none).fs q = w.fs q ∨
        (q = p ∧ (World.setEntry { w with log := w.log ++ [.file .remove p], oracle := o } p none).fs q = none) := by
      intro o q
      by_cases hq : q = p
      · exact Or.inr ⟨hq, if_pos hq⟩
      · exact Or.inl (if_neg hq)
    apply wp_atomicCall
    · intro o
      exact ⟨hrem o, ⟨[.file .remove p], rfl, by simp [Opens]⟩, fun _ => Or.inl (if_pos rfl), rfl, nofun⟩
    · intro o
      show (∀ q, w.fs q = w.fs q ∨ _) ∧ (∃ l, (w.log ++ [Event.file .remove p]) ++ [Event.removeFailed p] = w.log ++ l ∧ Opens [] l) ∧
        (_ → _ ∨ Event.removeFailed p ∈ ((w.log ++ [Event.file .remove p]) ++ [Event.removeFailed p]).drop w.log.length) ∧ w.umask = w.umask ∧ ∀ e, Out.ok () ≠ .err e
      exact ⟨fun q => Or.inl rfl, ⟨[.file .remove p, .removeFailed p], by simp, by simp [Opens]⟩, fun _ => Or.inr (by simp), rfl, nofun⟩
    · intro o
      exact ⟨fun q => Or.inl rfl, ⟨[.file .remove p], rfl, by simp [Opens]⟩, fun h => absurd rfl h, rfl, nofun⟩
    · intro o
      exact ⟨hrem o, ⟨[.file .remove p], rfl, by simp [Opens]⟩, fun h => absurd rfl h, rfl, nofun⟩

/-- Same files, longer trace. -/
def SameFiles (w w' : World) : Prop := w'.fs = w.fs ∧ ∃ l, w'.log = w.log ++ l ∧ Opens [] l

theorem sameFiles_pre : Pre SameFiles where
  refl w := ⟨rfl, [], by simp, by simp [Opens]⟩
  trans := by
    rintro a b c ⟨h1, l, h2, ho⟩ ⟨h3, l', h4, ho'⟩
    exact ⟨h3.trans h1, l ++ l', by rw [h4, h2, List.append_assoc], ho.append ho'⟩

theorem attempt_always {R : World → World → Prop} {m : Act α} (h : Always R m) (w : World) :
    wp m.attempt w (fun o w' => R w w' ∧ ∀ e, o ≠ .err e) := by
  rw [wp_attempt]
  have := h w
  show wp m w _
  unfold wp
  rcases hm : m w with ⟨o, w'⟩
  rw [hm] at this
  cases o <;> exact ⟨this, nofun⟩

theorem same_readOrEmpty (p : Path) (w : World) : wp (readOrEmpty p) w (fun o w' => SameFiles w w' ∧ ∀ e, o ≠ .err e) := by
  have hr : Always SameFiles (readFile p) := by
    unfold readFile
    refine Always.bind sameFiles_pre
      (Always.atomicCall (fun w o => ⟨rfl, _, rfl, by simp [Opens]⟩) (fun w o => ⟨rfl, _, rfl, by simp [Opens]⟩)) (fun _ => Always.bind sameFiles_pre (Always.peek sameFiles_pre p) ?_)
    intro f
    cases f with
    | none => exact Always.throw sameFiles_pre _
    | some f => exact Always.pure sameFiles_pre _
  unfold readOrEmpty
  rw [wp_bind]
  refine wp_mono (attempt_always hr w) ?_
  rintro o w' ⟨h, hne⟩
  cases o with
  | err e => exact absurd rfl (hne e)
  | crash => exact ⟨h, nofun⟩
  | ok r => cases r <;> exact ⟨h, nofun⟩

/-- Files change only at `out` and `err`, if this holds for the child. -/
def OnlyFiles (env : ChildEnv) (out err : Path) (w w' : World) : Prop :=
  ((∀ fs q, q ∉ [out, err] → env.effect fs q = fs q) → ∀ q, q ∉ [out, err] → w'.fs q = w.fs q) ∧ ∃ l, w'.log = w.log ++ l ∧ Opens [out, err] l

theorem onlyFiles_pre (env : ChildEnv) (out err : Path) : Pre (OnlyFiles env out err) where
  refl w := ⟨fun _ _ _ => rfl, [], by simp, by simp [Opens]⟩
  trans := by
    rintro a b c ⟨h1, l, h2, ho⟩ ⟨h3, l', h4, ho'⟩
    exact ⟨fun he q hq => by rw [h3 he q hq, h1 he q hq], l ++ l', by rw [h4, h2, List.append_assoc], ho.append ho'⟩

theorem SameFiles.only {env : ChildEnv} {out err : Path} {w w' : World} (h : SameFiles w w') : OnlyFiles env out err w w' :=
  ⟨fun _ q _ => by rw [h.1], h.2.imp fun _ h => ⟨h.1, h.2.mono nofun⟩⟩

theorem only_spawnAndWait {cmd : List Char} {t : Nat} {ip : Ip} {out err : Path} {env : ChildEnv} :
    Always (OnlyFiles env out err) (spawnAndWait cmd t ip out err env) := by
  unfold spawnAndWait openTrunc
  have hp := onlyFiles_pre env out err
  refine Always.bind hp ?_ (fun _ => Always.bind hp ?_ (fun _ => Always.bind hp ?_ (fun _ => ?_)))
  · exact Always.atomicCall (fun w o => ⟨fun _ _ _ => rfl, _, rfl, by simp [Opens]⟩)
      (fun w o => ⟨fun _ q h => if_neg (fun e => h (by simp [e])), _, rfl, by simp [Opens]⟩)
  · exact Always.atomicCall (fun w o => ⟨fun _ _ _ => rfl, _, rfl, by simp [Opens]⟩)
      (fun w o => ⟨fun _ q h => if_neg (fun e => h (by simp [e])), _, rfl, by simp [Opens]⟩)
  · exact Always.atomicCall (fun w o => ⟨fun _ _ _ => rfl, _, rfl, by simp [Opens]⟩) (fun w o => ⟨fun he q h => he _ q h, _, rfl, by simp [Opens]⟩)
  · have hk : Always (OnlyFiles env out err) (note .kill) := Always.note (fun _ => ⟨fun _ _ _ => rfl, _, rfl, by simp [Opens]⟩)
    have hr : Always (OnlyFiles env out err) (note .reap) := Always.note (fun _ => ⟨fun _ _ _ => rfl, _, rfl, by simp [Opens]⟩)
    generalize pollLoop env.exit (deadlineOf env.startAt t) env.rounds = p
    cases p with
    | completed s => exact Always.pure hp _
    | timedOut t => exact Always.bind hp hk (fun _ => Always.bind hp hr (fun _ => Always.pure hp _))
    | waitFailed => exact Always.throw hp _
    | killFailed t => exact Always.throw hp _
    | reapFailed t => exact Always.bind hp hk (fun _ => Always.throw hp _)
    | waiting => exact fun w => hp.refl w

theorem temp_spec (pre : Path) (kind : List Char) (w : World) :
    wp (tempOutputPath pre kind) w (fun o w' => SameFiles w w' ∧ ∀ p, o = .ok p → pre <+: p) := by
  unfold tempOutputPath
  rw [wp_bind]
  refine wp_nowNanos w _ ?_ ?_
  · intro t c _
    refine ⟨⟨rfl, [], (List.append_nil _).symm, by simp [Opens]⟩, ?_⟩
    intro p hp
    cases hp
    exact ⟨_, by rw [List.append_assoc]⟩
  · intro c
    exact ⟨⟨rfl, [], by simp, by simp [Opens]⟩, fun p hp => by cases hp⟩

/-- What is known about the capture files after an execution. -/
def Captured (pre : Path) (env : ChildEnv) (w : World) {α : Type} (o : Out α) (w' : World) : Prop :=
  ∃ created : List Path, created.length ≤ 2 ∧ (∀ p ∈ created, pre <+: p) ∧ (∀ p, .file .openTrunc p ∈ w'.log.drop w.log.length → p ∈ created) ∧
    (o ≠ .crash → ∀ p ∈ created, w'.fs p = none ∨ .removeFailed p ∈ w'.log.drop w.log.length) ∧
    ((∀ fs, ∀ q, q ∉ created → env.effect fs q = fs q) → ∀ q, q ∉ created → w'.fs q = w.fs q)

theorem captured (pre : Path) (cmd : List Char) (timeout : Nat) (ip : Ip) (env : ChildEnv) (w : World) :
    wp (executeWithTimeout pre cmd timeout ip env) w (Captured pre env w) := by
  unfold executeWithTimeout
  have hno : ∀ {α : Type} (o : Out α) (w' : World), SameFiles w w' → Captured pre env w o w' := by
    intro α o w' h
    obtain ⟨l, hl, ho⟩ := h.2
    exact ⟨[], by simp, by simp, by rw [hl, List.drop_left]; exact ho, by simp, fun _ q _ => by rw [h.1]⟩
  rw [wp_bind]
  refine wp_mono (temp_spec pre _ w) ?_
  rintro o w1 ⟨h1, hp1⟩
  cases o with
  | err e => exact hno _ _ h1
  | crash => exact hno _ _ h1
  | ok out =>
    have hp1 := hp1 out rfl
    simp only
    rw [wp_bind]
    refine wp_mono (temp_spec pre _ w1) ?_
    rintro o w2 ⟨h2, hp2⟩
    have h2 := sameFiles_pre.trans h1 h2
    cases o with
    | err e => exact hno _ _ h2
    | crash => exact hno _ _ h2
    | ok err =>
      have hp2 := hp2 err rfl
      simp only
      -- from here on the two files may exist
      have mk : ∀ {α : Type} (o : Out α) (w' : World), OnlyFiles env out err w w' →
          (o ≠ .crash → ∀ p ∈ [out, err], w'.fs p = none ∨ .removeFailed p ∈ w'.log.drop w.log.length) → Captured pre env w o w' := by
        intro α o w' hf hr
        obtain ⟨l, hl, ho⟩ := hf.2
        exact ⟨[out, err], by simp, by simp [hp1, hp2], by rw [hl, List.drop_left]; exact ho, hr, hf.1⟩
      have hp := onlyFiles_pre env out err
      rw [wp_bind]
      refine wp_mono (attempt_always only_spawnAndWait w2) ?_
      rintro o w3 ⟨h3, hne⟩
      have h3 := hp.trans h2.only h3
      cases o with
      | err e => exact absurd rfl (hne e)
      | crash => exact mk _ _ h3 (fun h => absurd rfl h)
      | ok result =>
        simp only
        rw [wp_bind]
        refine wp_mono (same_readOrEmpty out w3) ?_
        rintro o w4 ⟨h4, hne⟩
        have h4 := hp.trans h3 h4.only
        cases o with
        | err e => exact absurd rfl (hne e)
        | crash => exact mk _ _ h4 (fun h => absurd rfl h)
        | ok stdout =>
          simp only
          rw [wp_bind]
          refine wp_mono (same_readOrEmpty err w4) ?_
          rintro o w5 ⟨h5, hne⟩
          have h5 := hp.trans h4 h5.only
          cases o with
          | err e => exact absurd rfl (hne e)
          | crash => exact mk _ _ h5 (fun h => absurd rfl h)
          | ok stderr =>
            simp only
            rw [wp_bind]
            refine wp_mono (removeIgnoring_spec out w5) ?_
            rintro o w6 ⟨h6, hl6, hr6, _, hne⟩
            have h6' : OnlyFiles env out err w w6 := by
              refine hp.trans h5 ⟨?_, hl6.imp fun _ h => ⟨h.1, h.2.mono nofun⟩⟩
              intro _ q hq
              rcases h6 q with h | ⟨h, _⟩
              · exact h
              · exact absurd (by simp [h]) hq
            cases o with
            | err e => exact absurd rfl (hne e)
            | crash => exact mk _ _ h6' (fun h => absurd rfl h)
            | ok u =>
              simp only
              rw [wp_bind]
              refine wp_mono (removeIgnoring_spec err w6) ?_
              rintro o w7 ⟨h7, hl7, hr7, _, hne⟩
              have h7' : OnlyFiles env out err w w7 := by
                refine hp.trans h6' ⟨?_, hl7.imp fun _ h => ⟨h.1, h.2.mono nofun⟩⟩
                intro _ q hq
                rcases h7 q with h | ⟨h, _⟩
                · exact h
                · exact absurd (by simp [h]) hq
              cases o with
              | err e => exact absurd rfl (hne e)
              | crash => exact mk _ _ h7' (fun h => absurd rfl h)
              | ok u =>
                simp only
                have hfin : ∀ p ∈ [out, err], w7.fs p = none ∨ .removeFailed p ∈ w7.log.drop w.log.length := by
                  obtain ⟨l5, e5, _⟩ := h5.2
                  obtain ⟨l6, e6, _⟩ := hl6
                  obtain ⟨l7, e7, _⟩ := hl7
                  have g6 := hr6 nofun
                  have g7 := hr7 nofun
                  rw [e6] at g6
                  rw [e7] at g7
                  rw [e7, e6, e5]
                  simp only [List.drop_left, List.append_assoc, List.mem_append] at g6 g7 ⊢
                  intro p hp
                  simp only [List.mem_cons, List.not_mem_nil, or_false] at hp
                  rcases hp with rfl | rfl
                  · rcases g6 with g | g
                    · rcases h7 p with h | ⟨_, h⟩
                      · exact Or.inl (h.trans g)
                      · exact Or.inl h
                    · exact Or.inr (Or.inr (Or.inl g))
                  · rcases g7 with g | g
                    · exact Or.inl g
                    · exact Or.inr (Or.inr (Or.inr g))
                cases result with
                | ok exit => exact mk _ _ h7' (fun _ => hfin)
                | error e => exact mk _ _ h7' (fun _ => hfin)

/-- **C28g.** Whatever happens short of the commander itself being killed — the command ends, is killed, can not be started, polling fails, a capture
file can not be opened or read — afterwards the (at most two) capture files,
the only files it opens for writing, are gone, unless removing them failed. Nothing else was changed by the
commander: if the command wrote only to its output, every other file is as before (also if the commander is killed). -/
theorem C28_capture_files_removed (tmpPrefix : Path) (cmd : List Char) (timeout : Nat) (ip : Ip) (env : ChildEnv) (w w' : World)
    (o : Out (CommandExit × List Byte × List Byte)) (h : executeWithTimeout tmpPrefix cmd timeout ip env w = (o, w')) :
    ∃ created : List Path, created.length ≤ 2 ∧ (∀ p ∈ created, tmpPrefix <+: p) ∧
      (∀ p, .file .openTrunc p ∈ w'.log.drop w.log.length → p ∈ created) ∧
      (o ≠ .crash → ∀ p ∈ created, w'.fs p = none ∨ .removeFailed p ∈ w'.log.drop w.log.length) ∧
      ((∀ fs, ∀ q, q ∉ created → env.effect fs q = fs q) → ∀ q, q ∉ created → w'.fs q = w.fs q) := by
  have := captured tmpPrefix cmd timeout ip env w
  unfold wp at this
  rw [h] at this
  exact this

/-! ## C28: what is reported -/

/-- Neither killed nor reaped. -/
def Untouched (e : Event) : Prop := e ≠ .kill ∧ e ≠ .reap

theorem logs_readOrEmpty {P : Event → Prop} {p : Path} (hP : P (.file .read p)) : Always (Logs P) (readOrEmpty p) := by
  unfold readOrEmpty
  refine Always.bind (logs_pre P) (Always.attempt (logs_readFile hP)) (fun r => ?_)
  cases r <;> exact Always.pure (logs_pre P) _

/-- Facts about a reported result. -/
def Reported (env : ChildEnv) (timeout : Nat) (l : List Event) : CommandExit → Prop
  | .completed s => (∀ e ∈ l, Untouched e) ∧ pollLoop env.exit (deadlineOf env.startAt timeout) env.rounds = .completed s
  | .timedOut => .kill ∈ l ∧ .reap ∈ l ∧ ∃ t, pollLoop env.exit (deadlineOf env.startAt timeout) env.rounds = .timedOut t

theorem Reported.append {env : ChildEnv} {timeout : Nat} {l l' : List Event} {x : CommandExit} (h : Reported env timeout l x)
    (h' : ∀ e ∈ l', Untouched e) : Reported env timeout (l ++ l') x := by
  cases x with
  | completed s =>
    refine ⟨fun e he => ?_, h.2⟩
    rcases List.mem_append.1 he with he | he
    · exact h.1 e he
    · exact h' e he
  | timedOut => exact ⟨by simp [h.1], by simp [h.2.1], h.2.2⟩

theorem Reported.prepend {env : ChildEnv} {timeout : Nat} {l l' : List Event} {x : CommandExit} (h : Reported env timeout l x)
    (h' : ∀ e ∈ l', Untouched e) : Reported env timeout (l' ++ l) x := by
  cases x with
  | completed s =>
    refine ⟨fun e he => ?_, h.2⟩
    rcases List.mem_append.1 he with he | he
    · exact h' e he
    · exact h.1 e he
  | timedOut => exact ⟨by simp [h.1], by simp [h.2.1], h.2.2⟩

theorem reported_spawnAndWait (cmd : List Char) (t : Nat) (ip : Ip) (out err : Path) (env : ChildEnv) (w : World) :
    wp (spawnAndWait cmd t ip out err env) w (fun o w' => ∀ x, o = .ok x → ∃ l, w'.log = w.log ++ l ∧ Reported env t l x) := by
  unfold spawnAndWait
  have hU : ∀ {ev : Event}, ev ≠ .kill → ev ≠ .reap → Untouched ev := fun h h' => ⟨h, h'⟩
  rw [wp_bind]
  refine wp_mono (m := openTrunc out) (Q := fun _ w' => Logs Untouched w w') (logs_openTrunc (hU nofun nofun) w) ?_
  intro o w1 h1
  cases o with
  | err e => exact nofun
  | crash => exact nofun
  | ok u =>
    simp only
    rw [wp_bind]
    refine wp_mono (m := openTrunc err) (Q := fun _ w' => Logs Untouched w w') ((logs_pre _).trans h1 (logs_openTrunc (hU nofun nofun) w1)) ?_
    intro o w2 h2
    cases o with
    | err e => exact nofun
    | crash => exact nofun
    | ok u =>
      simp only
      rw [wp_bind]
      refine wp_mono (Q := fun _ w' => Logs Untouched w w') ((logs_pre _).trans h2 (logs_call (P := Untouched)
        (ev := .spawn cmd ip) (eff := fun w => { w with fs := env.effect w.fs }) (hU nofun nofun) (fun _ => rfl) w2)) ?_
      intro o w3 h3
      cases o with
      | err e => exact nofun
      | crash => exact nofun
      | ok u =>
        simp only
        obtain ⟨l, hl, hn⟩ := h3
        rcases hp : pollLoop env.exit (deadlineOf env.startAt t) env.rounds with s | t | _ | t | t | _
        · intro x hx
          cases hx
          exact ⟨l, hl, hn, hp⟩
        · intro x hx
          cases hx
          refine ⟨l ++ [.kill, .reap], ?_, by simp, by simp, t, hp⟩
          show (w3.log ++ [Event.kill]) ++ [Event.reap] = _
          rw [hl]; simp
        · exact nofun
        · exact nofun
        · exact nofun
        · exact nofun

theorem reported_execute (pre : Path) (cmd : List Char) (t : Nat) (ip : Ip) (env : ChildEnv) (w : World) :
    wp (executeWithTimeout pre cmd t ip env) w (fun o w' => ∀ x so se, o = .ok (x, so, se) → ∃ l, w'.log = w.log ++ l ∧ Reported env t l x) := by
  unfold executeWithTimeout
  have hU : ∀ {ev : Event}, ev ≠ .kill → ev ≠ .reap → Untouched ev := fun h h' => ⟨h, h'⟩
  have htemp : ∀ kind, Always (Logs Untouched) (tempOutputPath pre kind) := fun kind =>
    Always.bind (logs_pre _) logs_nowNanos (fun _ => Always.pure (logs_pre _) _)
  rw [wp_bind]
  refine wp_mono (Q := fun _ w' => Logs Untouched w w') (htemp _ w) ?_
  intro o w1 h1
  cases o with
  | err e => exact nofun
  | crash => exact nofun
  | ok out =>
    simp only
    rw [wp_bind]
    refine wp_mono (Q := fun _ w' => Logs Untouched w w') ((logs_pre _).trans h1 (htemp _ w1)) ?_
    intro o w2 h2
    cases o with
    | err e => exact nofun
    | crash => exact nofun
    | ok err =>
      simp only
      rw [wp_bind, wp_attempt]
      refine wp_mono (reported_spawnAndWait cmd t ip out err env w2) ?_
      intro o w3 h3
      have tail : ∀ result : Except Err CommandExit,
          wp (do
            let stdout ← readOrEmpty out
            let stderr ← readOrEmpty err
            removeIgnoring out
            removeIgnoring err
            let exit ← Act.ofExcept result
            pure (exit, stdout, stderr)) w3 (fun o w' => Logs Untouched w3 w' ∧ ∀ x so se, o = .ok (x, so, se) → result = .ok x) := by
        intro result
        rw [wp_bind]
        refine wp_mono (Q := fun _ w' => Logs Untouched w3 w') (logs_readOrEmpty (hU nofun nofun) w3) ?_
        intro o w4 h4
        cases o with
        | err e => exact ⟨h4, nofun⟩
        | crash => exact ⟨h4, nofun⟩
        | ok so =>
          simp only
          rw [wp_bind]
          refine wp_mono (Q := fun _ w' => Logs Untouched w3 w') ((logs_pre _).trans h4 (logs_readOrEmpty (hU nofun nofun) w4)) ?_
          intro o w5 h5
          cases o with
          | err e => exact ⟨h5, nofun⟩
          | crash => exact ⟨h5, nofun⟩
          | ok se =>
            simp only
            rw [wp_bind]
            refine wp_mono (Q := fun _ w' => Logs Untouched w3 w')
              ((logs_pre _).trans h5 (logs_removeIgnoring (hU nofun nofun) (hU nofun nofun) w5)) ?_
            intro o w6 h6
            cases o with
            | err e => exact ⟨h6, nofun⟩
            | crash => exact ⟨h6, nofun⟩
            | ok u =>
              simp only
              rw [wp_bind]
              refine wp_mono (Q := fun _ w' => Logs Untouched w3 w')
                ((logs_pre _).trans h6 (logs_removeIgnoring (hU nofun nofun) (hU nofun nofun) w6)) ?_
              intro o w7 h7
              cases o with
              | err e => exact ⟨h7, nofun⟩
              | crash => exact ⟨h7, nofun⟩
              | ok u =>
                cases result with
                | error e => exact ⟨h7, nofun⟩
                | ok x =>
                  refine ⟨h7, ?_⟩
                  intro x' so' se' hx
                  cases hx
                  rfl
      obtain ⟨l2, hl2, hn2⟩ := h2
      cases o with
      | crash => exact nofun
      | err e =>
        refine wp_mono (tail (.error e)) ?_
        rintro o w4 ⟨_, h⟩ x so se hx
        cases h x so se hx
      | ok y =>
        refine wp_mono (tail (.ok y)) ?_
        rintro o w4 ⟨⟨l4, hl4, hn4⟩, h⟩ x so se hx
        cases h x so se hx
        obtain ⟨l3, hl3, hr⟩ := h3 _ rfl
        exact ⟨l2 ++ l3 ++ l4, by rw [hl4, hl3, hl2]; simp, (hr.prepend hn2).append hn4⟩

/-- **C28h.** A result "timed out" means the command was killed and reaped; a status is reported only for a command that was neither, and it is the
status the command itself ended with. -/
theorem C28_report_matches (tmpPrefix : Path) (cmd : List Char) (timeout : Nat) (ip : Ip) (env : ChildEnv) (w w' : World)
    (x : CommandExit) (stdout stderr : List Byte) (h : executeWithTimeout tmpPrefix cmd timeout ip env w = (.ok (x, stdout, stderr), w')) :
    (x = .timedOut → .kill ∈ w'.log.drop w.log.length ∧ .reap ∈ w'.log.drop w.log.length) ∧
    (∀ s, x = .completed s → .kill ∉ w'.log.drop w.log.length ∧ .reap ∉ w'.log.drop w.log.length ∧ ∃ e, env.exit = some (e, s)) := by
  have := reported_execute tmpPrefix cmd timeout ip env w
  unfold wp at this
  rw [h] at this
  obtain ⟨l, hl, hr⟩ := this _ _ _ rfl
  rw [hl, List.drop_left]
  cases x with
  | completed s =>
    refine ⟨nofun, ?_⟩
    intro s' hs
    cases hs
    exact ⟨fun hk => (hr.1 _ hk).1 rfl, fun hk => (hr.1 _ hk).2 rfl, C28_status_is_genuine env timeout s hr.2⟩
  | timedOut => exact ⟨fun _ => ⟨hr.1, hr.2.1⟩, nofun⟩

/-- **C28i.** The time limit in force is the configured one of the command that was asked for: for every connection that ends with a report, the
command and its limit are those of an entry of the table whose name has the received hash, and the report is the one that limit leads to. -/
theorem C28_configured_limit_applies (hash : List Char → U64) (commands : List (List Char × CommandValue)) (c : Commander)
    (hc : c.cmds = getHashToCmd hash commands) (pre : Path) (tf : Bool) (bytes : List Byte) (env : ChildEnv) (w w' : World)
    (x : CommandExit) (stdout stderr : List Byte) (h : c.runCycle pre tf bytes env w = (.ok (some (.ok (x, stdout, stderr))), w')) :
    ∃ name v ip, (name, v) ∈ commands ∧ request (.stream tf bytes env) = some (hash name, ip) ∧
      match x with
      | .completed s => pollLoop env.exit (deadlineOf env.startAt (timeLimit v)) env.rounds = .completed s
      | .timedOut => ∃ t, pollLoop env.exit (deadlineOf env.startAt (timeLimit v)) env.rounds = .timedOut t := by
  rcases runCycle_cases c pre tf bytes env with ⟨_, ⟨e, he⟩ | he⟩ | ⟨hsh, ip, spec, h1, h2, _, _, h3⟩
  · rw [he] at h; cases h
  · rw [he] at h; cases h
  · rw [hc] at h2
    obtain ⟨name, v, hm, rfl, rfl⟩ := C26_selected_is_configured hash commands hsh spec h2
    refine ⟨name, v, ip, hm, h1, ?_⟩
    rw [h3] at h
    have hr := reported_execute pre (commandText v) (timeLimit v) ip env w
    have : wp (do
        let r ← (executeWithTimeout pre (commandText v) (timeLimit v) ip env).attempt
        pure (some r)) w (fun o _ => ∀ x so se, o = .ok (some (.ok (x, so, se))) → ∃ l, Reported env (timeLimit v) l x) := by
      rw [wp_bind, wp_attempt]
      refine wp_mono hr ?_
      intro o w1 h1
      cases o with
      | crash => exact nofun
      | err e => exact nofun
      | ok y =>
        intro x so se hx
        cases hx
        obtain ⟨l, _, hl⟩ := h1 _ _ _ rfl
        exact ⟨l, hl⟩
    unfold wp at this
    rw [h] at this
    obtain ⟨l, hl⟩ := this _ _ _ rfl
    cases x with
    | completed s => exact hl.2
    | timedOut => exact hl.2.2

end Ruroco
