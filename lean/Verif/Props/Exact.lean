import Verif.Props.Exec
import Verif.Props.Socket
import Verif.Props.Refusal
import Verif.Props.Modes

/-!
# Exact conditions for C23, C28, C56 and C104
-/

namespace Ruroco

open Spec (NoFailures Timely Holds AsNew OpenToOthers OwnTemps)

/-! ## C23: when the server refuses to choose a socket -/

/-- **C23c.** The server refuses to start because of the systemd variables exactly if nothing with a higher priority is given, both are set, and they are not meant for this process or not for one socket. -/
theorem C23_refused_iff (env : SocketEnv) (pid : Nat) (argument config : Option (List Char)) :
    (∃ e, createServerUdpSocket env pid argument config = .error e) ↔
      argument = none ∧ env.listenAddress = none ∧
        ∃ p n, env.listenPid = some p ∧ env.listenFds = some n ∧ ¬ (p = (toString pid).toList ∧ n = ['1']) := by
  obtain ⟨h1, h2, h3, h4, h5⟩ := C23_socket_priority_partial env pid argument config
  have no : ∀ {x : Listen} {e : Err}, createServerUdpSocket env pid argument config = .ok x → createServerUdpSocket env pid argument config = .error e → False := by
    intro x e a b
    rw [a] at b
    cases b
  constructor
  · rintro ⟨e, he⟩
    cases ha : argument with
    | some a => exact (no (h1 a ha) he).elim
    | none =>
      cases hl : env.listenAddress with
      | some a => exact (no (h2 a ha hl) he).elim
      | none =>
        refine ⟨rfl, rfl, ?_⟩
        cases hp : env.listenPid with
        | none =>
          cases hc : config with
          | none => exact (no (h5 ha hl (.inl hp) hc) he).elim
          | some a => exact (no (h4 a ha hl (.inl hp) hc) he).elim
        | some p =>
          cases hn : env.listenFds with
          | none =>
            cases hc : config with
            | none => exact (no (h5 ha hl (.inr hn) hc) he).elim
            | some a => exact (no (h4 a ha hl (.inr hn) hc) he).elim
          | some n =>
            refine ⟨p, n, rfl, rfl, fun hx => ?_⟩
            have := h3 p n ha hl hp hn
            rw [if_pos hx] at this
            exact no this he
  · rintro ⟨ha, hl, p, n, hp, hn, hx⟩
    have := h3 p n ha hl hp hn
    rw [if_neg hx] at this
    exact ⟨_, this⟩

example : ∃ e, createServerUdpSocket ⟨some "17".toList, some "2".toList, none⟩ 17 none (some "x".toList) = .error e :=
  (C23_refused_iff _ _ _ _).2 ⟨rfl, rfl, _, _, rfl, rfl, by decide⟩

/-! ## C28: when a command is killed -/

theorem exitedBy_none (exit : Option (Nat × Bool)) (t : Nat) : exitedBy exit t = none ↔ ∀ e s, exit = some (e, s) → t < e := by
  unfold exitedBy
  split
  · rename_i e s
    split
    · rename_i h
      constructor
      · intro hh; cases hh
      · intro hh; have := hh e s rfl; omega
    · rename_i h
      constructor
      · intro _ e' s' hh; cases hh; omega
      · intro _; rfl
  · constructor
    · intro _ e s hh; cases hh
    · intro _; rfl

theorem timely_from {δ t : Nat} {rounds : List Round} (h : Timely δ t rounds) : ∀ q ∈ rounds, t ≤ q.waitAt := by
  induction rounds generalizing t with
  | nil => intro q hq; cases hq
  | cons x xs ih =>
    obtain ⟨a, _, b, _, c⟩ := h
    intro q hq
    rcases List.mem_cons.1 hq with rfl | hq
    · exact a
    · have := ih c q hq
      omega

theorem timedOut_iff (exit : Option (Nat × Bool)) (d t δ : Nat) (rounds : List Round) (t0 : Nat) (hnf : NoFailures rounds) (htime : Timely δ t0 rounds) :
    pollLoop exit (some d) rounds = .timedOut t ↔
      ∃ before r after, rounds = before ++ r :: after ∧ (∀ q ∈ before, q.now < d) ∧ d ≤ r.now ∧ (∀ e s, exit = some (e, s) → r.waitAt < e) ∧ t = r.now := by
  induction rounds generalizing t0 with
  | nil =>
    constructor
    · intro h; cases h
    · rintro ⟨b, r, a, h, _⟩
      cases b <;> cases h
  | cons r rest ih =>
    obtain ⟨hw, hk, hre⟩ := hnf r (List.mem_cons_self ..)
    obtain ⟨_, _, hle, _, hrest⟩ := htime
    have ih := ih _ (fun q hq => hnf q (List.mem_cons_of_mem _ hq)) hrest
    unfold pollLoop
    rw [hw]
    simp only [Bool.false_eq_true, if_false, Option.any_some, decide_eq_true_eq]
    cases hx : exitedBy exit r.waitAt with
    | some s =>
      constructor
      · intro h; cases h
      · rintro ⟨b, q, a, hl, _, _, hq, _⟩
        have hend : ∃ e s, exit = some (e, s) ∧ e ≤ r.waitAt := by
          unfold exitedBy at hx
          split at hx
          · rename_i e' s' he'
            split at hx
            · rename_i h'; exact ⟨e', s', rfl, h'⟩
            · cases hx
          · cases hx
        obtain ⟨e, s', he, hle'⟩ := hend
        have h1 := hq e s' he
        cases b with
        | nil =>
          injection hl with h2 _
          subst h2
          omega
        | cons b0 bs =>
          injection hl with h2 h3
          have hm : q ∈ rest := by rw [h3]; exact List.mem_append_right _ (List.mem_cons_self ..)
          have := timely_from hrest q hm
          omega
    | none =>
      rw [hk, hre]
      simp only [Bool.false_eq_true, if_false]
      by_cases hd : d ≤ r.now
      · rw [if_pos hd]
        constructor
        · intro h
          cases h
          exact ⟨[], r, rest, rfl, (fun q hq => absurd hq List.not_mem_nil), hd, (exitedBy_none _ _).1 hx, rfl⟩
        · rintro ⟨b, q, a, hl, hb, _, _, ht⟩
          cases b with
          | nil =>
            injection hl with h2 _
            rw [ht, h2]
          | cons b0 bs =>
            injection hl with h2 _
            have := hb b0 (List.mem_cons_self ..)
            rw [← h2] at this
            omega
      · rw [if_neg hd, ih]
        constructor
        · rintro ⟨b, q, a, hl, hb, h3, h4, h5⟩
          refine ⟨r :: b, q, a, by rw [hl]; rfl, ?_, h3, h4, h5⟩
          intro x hxm
          rcases List.mem_cons.1 hxm with rfl | hxm
          · omega
          · exact hb x hxm
        · rintro ⟨b, q, a, hl, hb, h3, h4, h5⟩
          cases b with
          | nil =>
            injection hl with h2 _
            subst h2
            exact absurd h3 hd
          | cons b0 bs =>
            injection hl with _ h2
            exact ⟨bs, q, a, h2, fun x hxm => hb x (List.mem_cons_of_mem _ hxm), h3, h4, h5⟩

/-- **C28j.** Exactly when a command is killed, if no call on it fails: with a deadline that can be represented, at the first reading of the clock that is not before it, unless the command had ended when
the commander looked just before that reading. That it ends between the look and the reading does not help it, that it ended long before its deadline always does. -/
theorem C28_killed_iff (env : ChildEnv) (timeout δ : Nat) (hnf : NoFailures env.rounds) (htime : Timely δ env.startAt env.rounds) (t : Nat) :
    pollLoop env.exit (deadlineOf env.startAt timeout) env.rounds = .timedOut t ↔
      env.startAt / 1000000000 + timeout < 2 ^ 63 ∧
      ∃ before r after, env.rounds = before ++ r :: after ∧ (∀ q ∈ before, q.now < env.startAt + timeout * 1000000000) ∧ env.startAt + timeout * 1000000000 ≤ r.now ∧
        (∀ e s, env.exit = some (e, s) → r.waitAt < e) ∧ t = r.now := by
  have hs : SECOND = 1000000000 := by unfold SECOND; rfl
  have hno := C28_no_deadline env timeout
  unfold deadlineOf at hno ⊢
  rw [hs] at hno ⊢
  by_cases hfit : env.startAt / 1000000000 + timeout < 2 ^ 63
  · rw [if_pos hfit]
    exact ⟨fun h => ⟨hfit, (timedOut_iff _ _ _ _ _ _ hnf htime).1 h⟩, fun h => (timedOut_iff _ _ _ _ _ _ hnf htime).2 h.2⟩
  · exact ⟨fun h => absurd h (hno (Nat.le_of_not_lt hfit) t), fun h => absurd h.1 hfit⟩

/-- One that ends between the look and the reading, and one that ended just before the look. -/
example : let killed : ChildEnv := { startAt := 0, exit := some (1000000400, true), rounds := [⟨1000000000, 1000000500, false, false, false⟩], effect := id }
    NoFailures killed.rounds ∧ Timely 1000000000 killed.startAt killed.rounds ∧ pollLoop killed.exit (deadlineOf 0 1) killed.rounds = .timedOut 1000000500 ∧
    pollLoop (some (1000000000, true)) (deadlineOf 0 1) killed.rounds = .completed true := by decide +kernel

/-! ## C56: which datagrams have the wrong size for the server -/

/-- **C56c.** A datagram is refused for its size exactly if it is shorter than 94 bytes. -/
theorem C56_rejected_iff (A : Aead) (s : Server) (dg : List Byte) (src : Ip) (rd : Readings) (w : World) :
    (∃ s', (s.iteration A dg src rd w).1 = .ok (s', .error .badSize)) ↔ dg.length < 94 := by
  constructor
  · rintro ⟨s', h⟩
    have he := refusal_ends A s dg ⟨src, 0⟩ rd w
    simp only at he
    rw [h] at he
    cases hx : s.refusal A dg ⟨src, 0⟩ rd w with
    | none =>
      rw [hx] at he
      exact absurd rfl (he s' .badSize)
    | some x =>
      rw [hx] at he
      obtain ⟨s1, h1⟩ := he
      have hk : x.kind = .badSize := by injection h1 with h1; injection h1 with _ h1; injection h1 with h1; exact h1.symm
      have hh := refusal_holds hx
      cases x <;> first | exact hh.2.1 | cases hk
  · intro h
    rw [C56_short_rejected_partial A s dg src rd w h]
    exact ⟨s, rfl⟩

example : exDatagram.length = 94 ∧ (∃ s', (exServer.iteration toyAead (exDatagram.take 93) (.v4 0x0a000001) exReadings (exWorld [])).1 = .ok (s', .error .badSize)) ∧
    ¬ ∃ s', (exServer.iteration toyAead exDatagram (.v4 0x0a000001) exReadings (exWorld [])).1 = .ok (s', .error .badSize) := by
  have h : exDatagram.length = 94 := by decide
  refine ⟨h, (C56_rejected_iff ..).2 ?_, fun hh => ?_⟩
  · rw [List.length_take, h]; decide
  · have := (C56_rejected_iff ..).1 hh
    omega

/-! ## C104: which umasks keep a saved file private -/

theorem asNew_closed_iff {u : Nat} {f : File} (hf : AsNew u f) : ¬ OpenToOthers f ↔ u &&& 0o066 = 0o066 := by
  have small : ∀ v < 512, ((0o666 - (0o666 &&& v)) &&& 0o077 = 0 ↔ v &&& 0o066 = 0o066) := by decide +kernel
  have e1 : 0o666 &&& u = 0o666 &&& (u % 512) := by
    rw [show 512 = 2 ^ 9 from rfl, ← Nat.and_two_pow_sub_one_eq_mod, Nat.and_comm u, ← Nat.and_assoc]
    rfl
  have e2 : u &&& 0o066 = (u % 512) &&& 0o066 := by
    rw [show 512 = 2 ^ 9 from rfl, ← Nat.and_two_pow_sub_one_eq_mod, Nat.and_assoc]
    rfl
  unfold OpenToOthers
  rw [hf.1, e1, e2, ← small _ (Nat.mod_lt _ (by decide))]
  exact Decidable.not_not

/-- **C104d.** Exactly when a successful start of the server leaves the replay state private, whatever its permissions were: if and only if the umask takes reading and writing from group and others. -/
theorem C104_start_private_iff (cfg : ServerCfg) (senv : StartEnv) (w w' : World) (s : Server) (ht : OwnTemps w) (h : Server.create cfg senv w = (.ok s, w')) (f : File)
    (hf : w'.fs (blocklistPath cfg.blDir) = some f) : ¬ OpenToOthers f ↔ w.umask &&& 0o066 = 0o066 := by
  obtain ⟨g, hg, hn⟩ := C104_start_resets cfg senv w w' s ht h
  rw [hg] at hf
  cases hf
  exact asNew_closed_iff hn

/-- **C104d**, the client: the same for the counter after a successful reseed. -/
theorem C104_reseed_private_iff (dir : Path) (held : Bool) (w w' : World) (ht : OwnTemps w) (h : runReseed dir held w = (.ok (), w')) (f : File) (hf : w'.fs (counterPath dir) = some f) :
    ¬ OpenToOthers f ↔ w.umask &&& 0o066 = 0o066 := by
  obtain ⟨g, hg, hn⟩ := C104_reseed_resets dir held w w' ht h
  rw [hg] at hf
  cases hf
  exact asNew_closed_iff hn

/-- The umask 0022 does not, 0077, 0066 and 0177 do. -/
example : (exPrivateCounter.umask &&& 0o066 ≠ 0o066 ∧ OwnTemps exPrivateCounter ∧ (runReseed "/c".toList false exPrivateCounter).1 = .ok ()) ∧
    0o077 &&& 0o066 = 0o066 ∧ 0o066 &&& 0o066 = 0o066 ∧ 0o177 &&& 0o066 = 0o066 :=
  ⟨⟨by decide, exPrivateCounter_temps, by decide +kernel⟩, by decide⟩

end Ruroco
