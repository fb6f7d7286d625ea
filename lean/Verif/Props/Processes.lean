import Verif.Model.Processes
import Verif.Props.Exec

/-!
# C83: what is left of a command that has timed out
-/

namespace Ruroco

/-! ## Replaying with and without the signal -/

theorem runsAt_kill_iff {p : Proc} {id k t : Nat} : (p.kill id k).runsAt t = true ↔ p.runsAt t = true ∧ (p.id = id → t < k) := by
  unfold Proc.kill
  split
  · rename_i h
    unfold Proc.runsAt
    cases hs : p.stop with
    | none => simp [h]
    | some e => simp [h, Nat.lt_min]; omega
  · rename_i h
    simp [h]

theorem kill_id (p : Proc) (id k : Nat) : (p.kill id k).id = p.id := by
  unfold Proc.kill; split <;> rfl

theorem kill_start (p : Proc) (id k : Nat) : (p.kill id k).start = p.start := by
  unfold Proc.kill; split <;> rfl

/-- What is there after the signal is what is there without it, with the one process cut short. -/
theorem replay_kill_sub {id k : Nat} {l acc acc' : List Proc} (h : ∀ p ∈ acc', ∃ q ∈ acc, p = q.kill id k) :
    ∀ p ∈ replay (some (id, k)) acc' l, ∃ q ∈ replay none acc l, p = q.kill id k := by
  induction l generalizing acc acc' with
  | nil => exact h
  | cons x rest ih =>
    unfold replay
    simp only [Option.elim]
    have hx : ∀ p ∈ x.kill id k :: acc', ∃ q ∈ x :: acc, p = q.kill id k := by
      intro p hp
      rcases List.mem_cons.mp hp with rfl | hp
      · exact ⟨x, by simp, rfl⟩
      · obtain ⟨q, hq, e⟩ := h p hp; exact ⟨q, by simp [hq], e⟩
    cases hpar : x.parent with
    | none => exact ih hx
    | some q =>
      simp only
      by_cases h1 : acc'.any (fun r => decide (r.id = q) && r.runsAt x.start) = true
      · have h2 : acc.any (fun r => decide (r.id = q) && r.runsAt x.start) = true := by
          rw [List.any_eq_true] at h1 ⊢
          obtain ⟨r, hr, hr2⟩ := h1
          obtain ⟨s, hs, rfl⟩ := h r hr
          refine ⟨s, hs, ?_⟩
          simp only [Bool.and_eq_true, decide_eq_true_eq, kill_id, runsAt_kill_iff] at hr2 ⊢
          exact ⟨hr2.1, hr2.2.1⟩
        rw [if_pos h1, if_pos h2]
        exact ih hx
      · rw [if_neg h1]
        split
        · refine ih (fun p hp => ?_)
          obtain ⟨q, hq, e⟩ := h p hp
          exact ⟨q, by simp [hq], e⟩
        · exact ih h

/-- Whatever was forked before the signal is there with it, too. -/
theorem replay_kill_sup {id k : Nat} {l acc acc' : List Proc} (h : ∀ p ∈ acc, p.start < k → p.kill id k ∈ acc') :
    ∀ p ∈ replay none acc l, p.start < k → p.kill id k ∈ replay (some (id, k)) acc' l := by
  induction l generalizing acc acc' with
  | nil => exact h
  | cons x rest ih =>
    unfold replay
    simp only [Option.elim]
    have hx : ∀ p ∈ x :: acc, p.start < k → p.kill id k ∈ x.kill id k :: acc' := by
      intro p hp hlt
      rcases List.mem_cons.mp hp with rfl | hp
      · simp
      · simp [h p hp hlt]
    cases hpar : x.parent with
    | none => exact ih hx
    | some q =>
      simp only
      by_cases h1 : acc.any (fun r => decide (r.id = q) && r.runsAt x.start) = true
      · rw [if_pos h1]
        by_cases hlt : x.start < k
        · have h2 : acc'.any (fun r => decide (r.id = q) && r.runsAt x.start) = true := by
            rw [List.any_eq_true] at h1 ⊢
            obtain ⟨r, hr, hr2⟩ := h1
            simp only [Bool.and_eq_true, decide_eq_true_eq] at hr2
            have hrs : r.start < k := by
              have := hr2.2
              unfold Proc.runsAt at this
              simp only [Bool.and_eq_true, decide_eq_true_eq] at this
              omega
            refine ⟨r.kill id k, h r hr hrs, ?_⟩
            simp only [Bool.and_eq_true, decide_eq_true_eq, kill_id, runsAt_kill_iff]
            exact ⟨hr2.1, hr2.2, fun _ => hlt⟩
          rw [if_pos h2]
          exact ih hx
        · have hx' : ∀ p ∈ x :: acc, p.start < k → p.kill id k ∈ acc' := by
            intro p hp hlt'
            rcases List.mem_cons.mp hp with rfl | hp
            · exact absurd hlt' hlt
            · exact h p hp hlt'
          split
          · exact ih hx
          · exact ih hx'
      · rw [if_neg h1]
        split
        · exact ih (fun p hp hlt => List.mem_cons_of_mem _ (h p hp hlt))
        · exact ih h

/-- The processes that nobody but the signalled one forked after the signal are kept: here, members come from the list. -/
theorem replay_mem {sig : Option (Nat × Nat)} {l acc : List Proc} :
    ∀ p ∈ replay sig acc l, p ∈ acc ∨ ∃ q ∈ l, p.id = q.id ∧ p.parent = q.parent ∧ p.start = q.start := by
  induction l generalizing acc with
  | nil => intro p hp; exact .inl hp
  | cons x rest ih =>
    have hx : (sig.elim x (fun s => x.kill s.1 s.2)).id = x.id ∧ (sig.elim x (fun s => x.kill s.1 s.2)).parent = x.parent ∧ (sig.elim x (fun s => x.kill s.1 s.2)).start = x.start := by
      cases sig with
      | none => exact ⟨rfl, rfl, rfl⟩
      | some s =>
        refine ⟨kill_id _ _ _, ?_, kill_start _ _ _⟩
        simp only [Option.elim]; unfold Proc.kill; split <;> rfl
    have hadd : ∀ p ∈ replay sig (sig.elim x (fun s => x.kill s.1 s.2) :: acc) rest, p ∈ acc ∨ ∃ q ∈ x :: rest, p.id = q.id ∧ p.parent = q.parent ∧ p.start = q.start := by
      intro p hp
      rcases ih p hp with h | ⟨q, hq, e⟩
      · rcases List.mem_cons.mp h with rfl | h
        · exact .inr ⟨x, by simp, hx⟩
        · exact .inl h
      · exact .inr ⟨q, by simp [hq], e⟩
    have hskip : ∀ p ∈ replay sig acc rest, p ∈ acc ∨ ∃ q ∈ x :: rest, p.id = q.id ∧ p.parent = q.parent ∧ p.start = q.start := by
      intro p hp
      rcases ih p hp with h | ⟨q, hq, e⟩
      · exact .inl h
      · exact .inr ⟨q, by simp [hq], e⟩
    unfold replay
    simp only
    split
    · exact hadd
    · split
      · exact hadd
      · exact hskip

/-- Everything in the result that did not start out there was forked by a process of the result that was running then. -/
theorem replay_parent {sig : Option (Nat × Nat)} {l acc : List Proc} (hacc : ∀ p ∈ acc, ∀ q, p.parent = some q → ∃ r ∈ acc, r.id = q ∧ r.runsAt p.start = true) :
    ∀ p ∈ replay sig acc l, ∀ q, p.parent = some q → ∃ r ∈ replay sig acc l, r.id = q ∧ r.runsAt p.start = true := by
  induction l generalizing acc with
  | nil => exact hacc
  | cons x rest ih =>
    have hx : (sig.elim x (fun s => x.kill s.1 s.2)).parent = x.parent ∧ (sig.elim x (fun s => x.kill s.1 s.2)).start = x.start := by
      cases sig with
      | none => exact ⟨rfl, rfl⟩
      | some s =>
        refine ⟨?_, kill_start _ _ _⟩
        simp only [Option.elim]; unfold Proc.kill; split <;> rfl
    unfold replay
    simp only
    cases hpar : x.parent with
    | none =>
      refine ih (fun p hp q hq => ?_)
      rcases List.mem_cons.mp hp with rfl | hp
      · rw [hx.1, hpar] at hq; cases hq
      · obtain ⟨r, hr, e⟩ := hacc p hp q hq; exact ⟨r, by simp [hr], e⟩
    | some q' =>
      simp only
      by_cases h1 : acc.any (fun r => decide (r.id = q') && r.runsAt x.start) = true
      · rw [if_pos h1]
        refine ih (fun p hp q hq => ?_)
        rcases List.mem_cons.mp hp with rfl | hp
        · rw [hx.1, hpar] at hq; cases hq
          obtain ⟨r, hr, hr2⟩ := List.any_eq_true.mp h1
          simp only [Bool.and_eq_true, decide_eq_true_eq] at hr2
          exact ⟨r, by simp [hr], hr2.1, by rw [hx.2]; exact hr2.2⟩
        · obtain ⟨r, hr, e⟩ := hacc p hp q hq; exact ⟨r, by simp [hr], e⟩
      · rw [if_neg h1]
        exact ih hacc

/-! ## C83 -/

theorem processesOf_timedOut {env : ChildEnv} {timeout k : Nat} (forks : List Proc) (h : pollLoop env.exit (deadlineOf env.startAt timeout) env.rounds = .timedOut k) :
    processesOf env timeout forks = replay (some (SHELL, k)) [] (shellOf env :: forks) := by
  unfold processesOf; rw [h]; rfl

/-- **C83, the part that holds.** From the moment `k` at which a command is reported as timed out: its shell does not run any more, nothing is forked by it, and a command that consists of the
shell alone (every process has the shell's identifier) has nothing running at all. *Missing*: all other processes; they are dealt with by `C83_others_survive`. -/
theorem C83_shell_gone_partial (env : ChildEnv) (timeout k : Nat) (forks : List Proc) (h : pollLoop env.exit (deadlineOf env.startAt timeout) env.rounds = .timedOut k) :
    (∀ p ∈ processesOf env timeout forks, p.id = SHELL → ∀ t, k ≤ t → p.runsAt t = false) ∧
      (∀ p ∈ processesOf env timeout forks, p.parent = some SHELL → p.start < k) ∧
      ((∀ p ∈ forks, p.id = SHELL) → ∀ p ∈ processesOf env timeout forks, ∀ t, k ≤ t → p.runsAt t = false) := by
  rw [processesOf_timedOut forks h]
  have h1 : ∀ p ∈ replay (some (SHELL, k)) [] (shellOf env :: forks), p.id = SHELL → ∀ t, k ≤ t → p.runsAt t = false := by
    intro p hp hid t ht
    obtain ⟨q, _, rfl⟩ := replay_kill_sub (acc := []) (by simp) p hp
    rw [kill_id] at hid
    cases hr : (q.kill SHELL k).runsAt t with
    | false => rfl
    | true =>
      have := (runsAt_kill_iff.mp hr).2 hid
      omega
  refine ⟨h1, ?_, ?_⟩
  · intro p hp hpar
    obtain ⟨r, hr, hid, hrun⟩ := replay_parent (by simp) p hp SHELL hpar
    by_cases hk : p.start < k
    · exact hk
    · have := h1 r hr hid p.start (by omega)
      rw [this] at hrun; cases hrun
  · intro hall p hp t ht
    refine h1 p hp ?_ t ht
    rcases replay_mem p hp with h | ⟨q, hq, e, _⟩
    · cases h
    · rw [e]
      rcases List.mem_cons.mp hq with rfl | hq
      · rfl
      · exact hall q hq

/-- **C83 refuted, in general.** Every other process of the command that was forked before the kill is untouched: it is there and runs at exactly the instants at which it would have run without a
time limit. And nothing appears that would not have been there without the limit. -/
theorem C83_others_survive (env : ChildEnv) (timeout k : Nat) (forks : List Proc) (h : pollLoop env.exit (deadlineOf env.startAt timeout) env.rounds = .timedOut k) :
    (∀ p ∈ undisturbed env forks, p.id ≠ SHELL → p.start < k → p ∈ processesOf env timeout forks) ∧
      (∀ p ∈ processesOf env timeout forks, p.id ≠ SHELL → p ∈ undisturbed env forks) := by
  rw [processesOf_timedOut forks h]
  refine ⟨?_, ?_⟩
  · intro p hp hid hlt
    have := replay_kill_sup (id := SHELL) (k := k) (acc := []) (acc' := []) (by simp) p hp hlt
    unfold Proc.kill at this
    rw [if_neg hid] at this
    exact this
  · intro p hp hid
    obtain ⟨q, hq, rfl⟩ := replay_kill_sub (acc := []) (by simp) p hp
    rw [kill_id] at hid
    unfold Proc.kill
    rw [if_neg hid]
    exact hq

/-- The command `sleep 3600; echo done` with a time limit of one second: polls every 50 ms. -/
def sleepEnv : ChildEnv where
  startAt := 0
  exit := some (3600002000000, true)
  rounds := (List.range 21).map (fun i => ⟨50000000 * i, 50000000 * i, false, false, false⟩)
  effect := id

/-- Its processes besides the shell: `sleep`, forked after 1 ms. -/
def sleepForks : List Proc := [⟨1, some SHELL, 1000000, some 3600001000000⟩]

/-- The next command, accepted when the first one has been disposed of. -/
def nextEnv : ChildEnv := { sleepEnv with startAt := 1001000000, exit := some (2001000000, true) }

/-- **C83 refuted, a case.** The first command has timed out after one second. It is still running an hour later, and runs at the same time as the command executed next although the commander runs
one command after the other. -/
theorem C83_orphans_survive :
    ∃ (env env' : ChildEnv) (forks : List Proc) (k : Nat),
      pollLoop env.exit (deadlineOf env.startAt 1) env.rounds = .timedOut k ∧ k ≤ env'.startAt ∧
      (∃ p ∈ processesOf env 1 forks, p.runsAt 3600000000000 = true) ∧
      (∃ t, (∃ p ∈ processesOf env 1 forks, p.runsAt t = true) ∧ ∃ p ∈ processesOf env' 1 [], p.runsAt t = true) :=
  ⟨sleepEnv, nextEnv, sleepForks, 1000000000, by decide +kernel, by decide +kernel, by decide +kernel, ⟨1500000000, by decide +kernel, by decide +kernel⟩⟩

/-- The same command with a time limit of two hours is left alone: nothing is killed. -/
example : processesOf sleepEnv 7200 sleepForks = undisturbed sleepEnv sleepForks := by decide +kernel

/-- The hypotheses of the theorems above hold of it. -/
example : pollLoop sleepEnv.exit (deadlineOf sleepEnv.startAt 1) sleepEnv.rounds = .timedOut 1000000000 := by decide +kernel

/-- A pipeline whose second stage would be started after the kill: it never is; the first stage goes on, and what *that* forks later is forked. -/
example : (processesOf sleepEnv 1 [⟨1, some SHELL, 1000000, some 3600000000000⟩, ⟨2, some SHELL, 2000000000, some 3000000000⟩, ⟨3, some 1, 2000000000, some 3000000000⟩]).map (·.id) = [3, 1, 0] := by
  decide +kernel

/-- **C83, commands that end by themselves.** When the shell has ended, nothing is killed: what it left running in the background runs on as if there were no time limit. -/
theorem C83_background_untouched (env : ChildEnv) (timeout : Nat) (s : Bool) (forks : List Proc) (h : pollLoop env.exit (deadlineOf env.startAt timeout) env.rounds = .completed s) :
    processesOf env timeout forks = undisturbed env forks := by
  unfold processesOf undisturbed; rw [h]; rfl

/-- `sleep 3600 &`: the command has completed after 2 ms, successfully; `sleep` runs on, long after the time limit. -/
example : pollLoop (some (2000000, true)) (deadlineOf 0 1) sleepEnv.rounds = .completed true ∧
    (processesOf { sleepEnv with exit := some (2000000, true) } 1 sleepForks).any (fun p => p.runsAt 3600000000000) = true := by decide +kernel

theorem completed_exit {exit : Option (Nat × Bool)} {d : Option Nat} {rounds : List Round} {s : Bool} (h : pollLoop exit d rounds = .completed s) : ∃ e, exit = some (e, s) ∧ ∃ r ∈ rounds, e ≤ r.waitAt := by
  induction rounds with
  | nil => cases h
  | cons r rest ih =>
    unfold pollLoop at h
    split at h
    · cases h
    · cases hx : exitedBy exit r.waitAt with
      | some s' =>
        simp only [hx] at h
        cases h
        unfold exitedBy at hx
        cases exit with
        | none => cases hx
        | some x =>
          simp only at hx
          split at hx
          · rename_i hle
            cases hx
            exact ⟨x.1, rfl, r, by simp, hle⟩
          · cases hx
      | none =>
        simp only [hx] at h
        split at h
        · split at h
          · cases h
          · split at h <;> cases h
        · obtain ⟨e, h1, r', hr, h2⟩ := ih h
          exact ⟨e, h1, r', by simp [hr], h2⟩

theorem replay_old {sig : Option (Nat × Nat)} {l acc : List Proc} : ∀ p ∈ acc, p ∈ replay sig acc l := by
  induction l generalizing acc with
  | nil => intro p hp; exact hp
  | cons x rest ih =>
    intro p hp
    unfold replay
    simp only
    split
    · exact ih p (by simp [hp])
    · split
      · exact ih p (by simp [hp])
      · exact ih p hp

theorem replay_none_mem {l acc : List Proc} : ∀ p ∈ replay none acc l, p ∈ acc ∨ p ∈ l := by
  induction l generalizing acc with
  | nil => intro p hp; exact .inl hp
  | cons x rest ih =>
    intro p hp
    have key : p ∈ replay none (x :: acc) rest ∨ p ∈ replay none acc rest → p ∈ acc ∨ p ∈ x :: rest := by
      rintro (h | h)
      · rcases ih p h with h | h
        · rcases List.mem_cons.mp h with rfl | h
          · exact .inr (by simp)
          · exact .inl h
        · exact .inr (by simp [h])
      · rcases ih p h with h | h
        · exact .inl h
        · exact .inr (by simp [h])
    unfold replay at hp
    simp only [Option.elim] at hp
    split at hp
    · exact key (.inl hp)
    · split at hp
      · exact key (.inl hp)
      · exact key (.inr hp)

/-- **C83, commands that end by themselves.** A command is reported as completed only after its shell has ended, with the result that the shell had: the shell ran from the start to that end and not longer. -/
theorem C83_completed_shell_gone (env : ChildEnv) (timeout : Nat) (s : Bool) (forks : List Proc) (hf : ∀ p ∈ forks, p.id ≠ SHELL)
    (h : pollLoop env.exit (deadlineOf env.startAt timeout) env.rounds = .completed s) :
    ∃ e, env.exit = some (e, s) ∧ (∃ r ∈ env.rounds, e ≤ r.waitAt) ∧ (∃ p ∈ processesOf env timeout forks, p.id = SHELL) ∧
      ∀ p ∈ processesOf env timeout forks, p.id = SHELL → ∀ t, p.runsAt t = true ↔ env.startAt ≤ t ∧ t < e := by
  obtain ⟨e, hx, hr⟩ := completed_exit h
  rw [C83_background_untouched env timeout s forks h]
  refine ⟨e, hx, hr, ⟨shellOf env, ?_, rfl⟩, ?_⟩
  · unfold undisturbed replay
    exact replay_old _ (by simp [shellOf])
  · intro p hp hid t
    rcases replay_none_mem p hp with h | h
    · cases h
    · rcases List.mem_cons.mp h with rfl | h
      · unfold Proc.runsAt shellOf
        simp [hx]
      · exact absurd hid (hf p h)

/-- The hypotheses hold of `sleep 3600 &`. -/
example : (∀ p ∈ sleepForks, p.id ≠ SHELL) ∧ pollLoop (some (2000000, true)) (deadlineOf 0 1) sleepEnv.rounds = .completed true := by decide +kernel

end Ruroco
