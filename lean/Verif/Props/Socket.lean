import Verif.Model.Socket

/-!
# C23: choice of the listening socket
-/

namespace Ruroco

/-- **C23a (partial).** The documented priority, case by case; the five cases are exhaustive and exclusive. Missing: the clause "inconsistent
systemd variables cause a refusal" when only one of the two variables is set, for which it is false (`C23_half_set_falls_back`). -/
theorem C23_socket_priority_partial (env : SocketEnv) (pid : Nat) (argument config : Option (List Char)) :
    -- 1. an argument wins over everything
    (∀ a, argument = some a → createServerUdpSocket env pid argument config = .ok (.bind a)) ∧
    -- 2. then the environment variable
    (∀ a, argument = none → env.listenAddress = some a → createServerUdpSocket env pid argument config = .ok (.bind a)) ∧
    -- 3. then systemd activation, if meant for this process and for exactly one socket; otherwise refusal
    (∀ p n, argument = none → env.listenAddress = none → env.listenPid = some p → env.listenFds = some n →
      createServerUdpSocket env pid argument config = if p = (toString pid).toList ∧ n = ['1'] then .ok (.fd 3) else .error .config) ∧
    -- 4. then the configured address
    (∀ a, argument = none → env.listenAddress = none → (env.listenPid = none ∨ env.listenFds = none) → config = some a →
      createServerUdpSocket env pid argument config = .ok (.bind a)) ∧
    -- 5. then the fallback
    (argument = none → env.listenAddress = none → (env.listenPid = none ∨ env.listenFds = none) → config = none →
      createServerUdpSocket env pid argument config = .ok (.bind "[::]:34020".toList)) := by
  obtain ⟨p, n, a⟩ := env
  refine ⟨?_, ?_, ?_, ?_, ?_⟩
  · rintro a rfl; rfl
  · rintro b rfl h; simp only at h; subst h; rfl
  · rintro q m rfl h1 h2 h3
    simp only at h1 h2 h3
    subst h1; subst h2; subst h3
    simp only [createServerUdpSocket]
    by_cases h : q = showNat pid ∧ m = "1".toList
    · rw [if_pos h, if_pos]
      exact h
    · rw [if_neg h, if_neg (c := q = (toString pid).toList ∧ m = ['1']) h]
      by_cases hm : m = "1".toList
      · rw [if_neg (by simpa using hm), if_pos]
        exact fun hq => h ⟨hq, hm⟩
      · rw [if_pos hm]
  · rintro b rfl h1 h2 rfl
    simp only at h1 h2
    subst h1
    rcases h2 with rfl | rfl
    · rfl
    · cases p <;> rfl
  · rintro rfl h1 h2 rfl
    simp only at h1 h2
    subst h1
    rcases h2 with rfl | rfl
    · rfl
    · cases p <;> rfl

/-- **C23b.** The inherited descriptor is used only if systemd addressed exactly this process with exactly one socket. -/
theorem C23_fd_only_if_activated (env : SocketEnv) (pid : Nat) (argument config : Option (List Char)) (n : Nat)
    (h : createServerUdpSocket env pid argument config = .ok (.fd n)) :
    n = 3 ∧ env.listenPid = some (toString pid).toList ∧ env.listenFds = some ['1'] ∧ env.listenAddress = none ∧ argument = none := by
  obtain ⟨p, m, a⟩ := env
  unfold createServerUdpSocket at h
  split at h
  · cases h
  · cases h
  · split at h
    · rename_i hc
      cases h
      rename_i hp hm ha
      simp only at hp hm ha ⊢
      exact ⟨trivial, by rw [hp, hc.1]; rfl, by rw [hm, hc.2]; rfl, ha, trivial⟩
    · split at h
      · cases h
      · split at h
        · cases h
        · unfold createServerUdpSocket.configured at h
          split at h <;> cases h
  · unfold createServerUdpSocket.configured at h
    split at h <;> cases h

/-- **C23 is false when only one of the two systemd variables is set**: the server falls back silently. -/
theorem C23_half_set_falls_back :
    createServerUdpSocket ⟨none, some "2".toList, none⟩ 17 none none = .ok (.bind "[::]:34020".toList) ∧
    createServerUdpSocket ⟨some "99".toList, none, none⟩ 17 none none = .ok (.bind "[::]:34020".toList) := ⟨rfl, rfl⟩

example : createServerUdpSocket ⟨some "17".toList, some "1".toList, none⟩ 17 none (some "x".toList) = .ok (.fd 3) := by decide +kernel
example : createServerUdpSocket ⟨some "18".toList, some "1".toList, none⟩ 17 none (some "x".toList) = .error .config := by decide +kernel

end Ruroco
