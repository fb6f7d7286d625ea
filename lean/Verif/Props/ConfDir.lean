import Verif.Model.UpdateCli
import Verif.Lemmas.Config
import Verif.Spec.Terms.ConfDir

/-!
# C76: the same counter and the same lock wherever the client is started
-/

namespace Ruroco

theorem isAbsolute_push {b r : Path} (h : isAbsolute b = true) : isAbsolute (pathPush b r) = true := by
  unfold pathPush
  split
  · assumption
  · cases b with
    | nil => cases h
    | cons c t =>
      split <;> exact h

/-- **C76**, proved part: with an absolute `RUROCO_CONF_DIR`, or without one and with an absolute home directory, every client and every interface of that user, wherever it is started, uses the
same counter file and the same lock file, and these are in the same directory. Missing: the other cases, see `C76_depends_on_directory`. -/
theorem C76_same_files_partial (v : EnvVars) (h : Fixed v) : ∃ d, isAbsolute d = true ∧ (v.confDir = some d ∨ ∃ home, v.home = some home ∧ v.confDir = none ∧
      d = pathPush (pathPush home ".config".toList) "ruroco".toList) ∧
    ∀ e, getCounterPath v e = .ok (pathPush d "counter".toList) ∧ getLockPath v e = .ok (pathPush d "client.lock".toList) := by
  have res : ∀ e p, isAbsolute p = true → resolvePath e p = p := fun e p hp => by unfold resolvePath; rw [if_pos hp]
  rcases h with ⟨p, hp, ha⟩ | ⟨hn, home, hh, ha⟩
  · refine ⟨p, ha, Or.inl hp, fun e => ?_⟩
    have hd : getConfDir v e = .ok p := by unfold getConfDir; rw [hp]
    unfold getCounterPath getLockPath
    rw [hd]
    exact ⟨by show Except.ok (pathPush (resolvePath e p) _) = _; rw [res e p ha], rfl⟩
  · have hb : isAbsolute (pathPush (pathPush home ".config".toList) "ruroco".toList) = true := isAbsolute_push (isAbsolute_push ha)
    refine ⟨_, hb, Or.inr ⟨home, hh, hn, rfl⟩, fun e => ?_⟩
    have hd : getConfDir v e = .ok (pathPush (pathPush home ".config".toList) "ruroco".toList) := by unfold getConfDir; rw [hn, hh]
    unfold getCounterPath getLockPath
    rw [hd]
    exact ⟨by show Except.ok (pathPush (resolvePath e _) _) = _; rw [res e _ hb], rfl⟩

/-- **C76**: whatever the variables are, the lock is in the directory of the counter it guards: two processes using counter files in the same directory exclude each other (see C31). Resolving links
gives an absolute path whose links are resolved. -/
theorem C76_lock_beside_counter (v : EnvVars) (e : PathEnv) (c : Path) (hc : e.cwd = some c) (hcabs : isAbsolute c = true)
    (hidem : ∀ p q, e.canon p = some q → e.canon q = some q ∧ isAbsolute q = true) :
    ∃ d counterDir, getLockPath v e = .ok (pathPush d "client.lock".toList) ∧ getCounterPath v e = .ok (pathPush counterDir "counter".toList) ∧ dirNamed e counterDir = dirNamed e d := by
  have key : ∀ d, dirNamed e (resolvePath e d) = dirNamed e d := by
    intro d
    by_cases ha : isAbsolute d = true
    · rw [show resolvePath e d = d from by unfold resolvePath; rw [if_pos ha]]
    · have e1 : resolvePath e d = (e.canon (pathPush c d)).getD (pathPush c d) := by unfold resolvePath; rw [if_neg ha, hc]
      have e2 : dirNamed e d = (e.canon (pathPush c d)).getD (pathPush c d) := by unfold dirNamed; simp only; rw [if_neg ha, hc]; rfl
      rw [e2, e1]
      cases hk : e.canon (pathPush c d) with
      | none =>
        have : isAbsolute (pathPush c d) = true := isAbsolute_push hcabs
        unfold dirNamed
        simp only [Option.getD_none]
        rw [if_pos this, hk]
        rfl
      | some q =>
        obtain ⟨h1, h2⟩ := hidem _ _ hk
        unfold dirNamed
        simp only [Option.getD_some]
        rw [if_pos h2, h1]
        rfl
  have main : ∀ d, getConfDir v e = .ok d → getLockPath v e = .ok (pathPush d "client.lock".toList) ∧ getCounterPath v e = .ok (pathPush (resolvePath e d) "counter".toList) := by
    intro d hd
    unfold getLockPath getCounterPath
    rw [hd]
    exact ⟨rfl, rfl⟩
  have : ∃ d, getConfDir v e = .ok d := by
    unfold getConfDir
    cases v.confDir with
    | some p => exact ⟨p, rfl⟩
    | none =>
      cases v.home with
      | some h => exact ⟨_, rfl⟩
      | none => rw [hc]; exact ⟨c, rfl⟩
  obtain ⟨d, hd⟩ := this
  exact ⟨d, resolvePath e d, (main d hd).1, (main d hd).2, key d⟩

/-- **C76 is false as stated**: without the two variables, or with a relative directory in `RUROCO_CONF_DIR`, the working directory decides, and a client started elsewhere uses another counter
(and another lock). -/
theorem C76_depends_on_directory : ∃ (v v' : EnvVars) (e e' : PathEnv), v = ⟨none, none⟩ ∧ v'.confDir = some "conf".toList ∧
    getCounterPath v e ≠ getCounterPath v e' ∧ getLockPath v e ≠ getLockPath v e' ∧ getCounterPath v' e ≠ getCounterPath v' e' :=
  ⟨⟨none, none⟩, ⟨some "conf".toList, some "/home/u".toList⟩, ⟨some "/a".toList, some⟩, ⟨some "/b".toList, some⟩, rfl, rfl, by
    constructor
    · intro h
      have : "/a/counter".toList = "/b/counter".toList := Except.ok.inj h
      exact absurd this (by decide +kernel)
    · constructor
      · intro h
        have : "/a/client.lock".toList = "/b/client.lock".toList := Except.ok.inj h
        exact absurd this (by decide +kernel)
      · intro h
        have : "/a/conf/counter".toList = "/b/conf/counter".toList := Except.ok.inj h
        exact absurd this (by decide +kernel)⟩

theorem push_prefix {b r : Path} (h : isAbsolute r = false) : b <+: pathPush b r := by
  unfold pathPush
  rw [if_neg (by rw [h]; decide)]
  split
  · exact List.prefix_append _ _
  · exact List.prefix_append _ _

theorem isAbsolute_push_rel {b r : Path} (h : isAbsolute b = false) (hr : isAbsolute r = false) : isAbsolute (pathPush b r) = false := by
  unfold pathPush
  rw [if_neg (by rw [hr]; decide)]
  cases b with
  | nil => rw [if_pos (Or.inl rfl)]; exact hr
  | cons c t => split <;> exact h

/-- **C76, exactly.** Clients started in any two directories use the same counter file if and only if `RUROCO_CONF_DIR` is absolute or, without it, `HOME` is. (For directories in which no links are
involved; with links the paths differ, but may lead to the same file.) -/
theorem C76_same_counter_iff (v : EnvVars) :
    (∀ c c', isAbsolute c = true → isAbsolute c' = true → getCounterPath v ⟨some c, some⟩ = getCounterPath v ⟨some c', some⟩) ↔ Fixed v := by
  constructor
  · intro h
    have h := h "/a".toList "/b".toList rfl rfl
    have differ : ∀ d, isAbsolute d = false → getConfDir v ⟨some "/a".toList, some⟩ = .ok d → getConfDir v ⟨some "/b".toList, some⟩ = .ok d → False := by
      intro d hd ha hb
      unfold getCounterPath at h
      rw [ha, hb] at h
      have h : Except.ok (ε := Err) (pathPush (resolvePath _ d) "counter".toList) = .ok (pathPush (resolvePath _ d) "counter".toList) := h
      have ra : resolvePath ⟨some "/a".toList, some⟩ d = pathPush "/a".toList d := by unfold resolvePath; rw [if_neg (by rw [hd]; decide)]; rfl
      have rb : resolvePath ⟨some "/b".toList, some⟩ d = pathPush "/b".toList d := by unfold resolvePath; rw [if_neg (by rw [hd]; decide)]; rfl
      rw [ra, rb] at h
      have h := Except.ok.inj h
      have pa := (push_prefix (b := "/a".toList) hd).trans (push_prefix (r := "counter".toList) rfl)
      have pb := (push_prefix (b := "/b".toList) hd).trans (push_prefix (r := "counter".toList) rfl)
      rw [h] at pa
      have := List.prefix_of_prefix_length_le pa pb (Nat.le_refl _)
      exact absurd (List.isPrefixOf_iff_prefix.2 this) (by decide)
    cases hc : v.confDir with
    | some p =>
      cases hp : isAbsolute p with
      | true => exact Or.inl ⟨p, hc, hp⟩
      | false => exact (differ p hp (by unfold getConfDir; rw [hc]) (by unfold getConfDir; rw [hc])).elim
    | none =>
      cases hh : v.home with
      | none =>
        unfold getCounterPath getConfDir at h
        rw [hc, hh] at h
        have : "/a/counter".toList = "/b/counter".toList := Except.ok.inj h
        exact absurd this (by decide +kernel)
      | some home =>
        cases hp : isAbsolute home with
        | true => exact Or.inr ⟨hc, home, hh, hp⟩
        | false =>
          have hr : isAbsolute (pathPush (pathPush home ".config".toList) "ruroco".toList) = false :=
            isAbsolute_push_rel (isAbsolute_push_rel hp rfl) rfl
          exact (differ _ hr (by unfold getConfDir; rw [hc, hh]) (by unfold getConfDir; rw [hc, hh])).elim
  · intro h c c' _ _
    obtain ⟨d, _, _, hd⟩ := C76_same_files_partial v h
    rw [(hd _).1, (hd _).1]

/-- The usual case: only `HOME` is set. -/
example : Fixed ⟨none, some "/home/u".toList⟩ ∧ ∀ e, getCounterPath ⟨none, some "/home/u".toList⟩ e = .ok "/home/u/.config/ruroco/counter".toList :=
  ⟨Or.inr ⟨rfl, _, rfl, rfl⟩, fun _ => rfl⟩

/-- The hypotheses of `C76_lock_beside_counter`: a working directory and links that are resolved to themselves; a relative directory. -/
example : ∃ e : PathEnv, e.cwd = some "/a".toList ∧ (∀ p q, e.canon p = some q → e.canon q = some q ∧ isAbsolute q = true) ∧
    e.canon "/a/conf".toList = some "/data/conf".toList ∧ getCounterPath ⟨some "conf".toList, none⟩ e = .ok "/data/conf/counter".toList ∧
    getLockPath ⟨some "conf".toList, none⟩ e = .ok "conf/client.lock".toList :=
  ⟨⟨some "/a".toList, fun _ => some "/data/conf".toList⟩, rfl, fun p q h => (by cases h; exact ⟨rfl, rfl⟩), rfl, rfl, rfl⟩

end Ruroco
