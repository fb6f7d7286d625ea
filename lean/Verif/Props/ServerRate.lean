import Verif.Props.Rate
import Verif.Props.Server
import Verif.Model.Run
import Verif.Lemmas.Server
import Verif.Spec.Terms.ServerRate

/-!
# C19, C22 for the running server

The limiter and the throttle of the server see every datagram, and their state is carried from one datagram to the next.
-/

namespace Ruroco

open Spec (Req Timed limit admitted)

theorem wp_any (m : Act α) (w : World) : wp m w (fun _ _ => True) := trivial

theorem validateAndSend_keeps (s : Server) (k p : List Byte) (src : Ip) (w : World) :
    wp (s.validateAndSend k p src) w (fun o _ => ∀ s' r, o = .ok (s', r) → s'.rl = s.rl ∧ s'.throttle = s.throttle ∧ s'.cfg = s.cfg) := by
  have done : ∀ (r : Except Err Unit) (w : World), wp (pure (s, r) : Act (Server × Except Err Unit)) w
      (fun o _ => ∀ s' r, o = .ok (s', r) → s'.rl = s.rl ∧ s'.throttle = s.throttle ∧ s'.cfg = s.cfg) := by
    intro r w s' r' h
    cases h
    exact ⟨rfl, rfl, rfl⟩
  unfold Server.validateAndSend
  rw [wp_bind]
  refine wp_mono (wp_any _ w) ?_
  intro o w1 _
  cases o with
  | crash => exact nofun
  | err e => exact nofun
  | ok now =>
    cases now with
    | error e => exact done _ _
    | ok now =>
      simp only
      cases ClientData.deserialize p with
      | error e => exact done _ _
      | ok d =>
        simp only
        split
        · exact done _ _
        split
        · exact done _ _
        split
        · exact done _ _
        split
        · exact done _ _
        rw [wp_bind]
        have hu : wp (s.updateBlockList k d.counter) w1 (fun o _ => ∀ s' r, o = .ok (s', r) → s'.rl = s.rl ∧ s'.throttle = s.throttle ∧ s'.cfg = s.cfg) := by
          unfold Server.updateBlockList
          rw [wp_bind]
          refine wp_mono (wp_any _ w1) ?_
          intro o w2 _
          cases o with
          | crash => exact nofun
          | err e => exact nofun
          | ok r =>
            cases r with
            | error e =>
              intro s' r h
              cases h
              exact ⟨rfl, rfl, rfl⟩
            | ok u =>
              intro s' r h
              cases h
              exact ⟨rfl, rfl, rfl⟩
        refine wp_mono hu ?_
        intro o w2 h2
        cases o with
        | crash => exact nofun
        | err e => exact nofun
        | ok x =>
          obtain ⟨s1, r⟩ := x
          have h3 := h2 s1 r rfl
          simp only
          cases r with
          | error e =>
            intro s' r h
            cases h
            exact h3
          | ok u =>
            simp only
            rw [wp_bind]
            refine wp_mono (wp_any _ w2) ?_
            intro o w3 _
            cases o with
            | crash => exact nofun
            | err e => exact nofun
            | ok _ =>
              intro s' r h
              cases h
              exact h3

/-- What one datagram does to limiter and throttle. -/
structure Accounted (s : Server) (f : Finished) (s' : Server) : Prop where
  cfg : s'.cfg = s.cfg
  short : ¬ 94 ≤ f.dg.length → s'.rl = s.rl ∧ f.result = .error .badSize
  checked : 94 ≤ f.dg.length → s'.rl = (s.rl.check (normalizeIp f.src) s.cfg.maxPerIp s.cfg.maxGlobal f.rd).2 ∧
    ∀ e, (s.rl.check (normalizeIp f.src) s.cfg.maxPerIp s.cfg.maxGlobal f.rd).1 = .error e → f.result = .error e
  throttle : s'.throttle = match f.result with
    | .error _ => (s.throttle.log f.tLog).2
    | .ok _ => s.throttle

theorem handleDatagram_accounted (A : Aead) (s s' : Server) (f : Finished) (w w' : World)
    (h : s.handleDatagram A f.dg f.src f.rd f.tLog w = (.ok (s', f.result), w')) : Accounted s f s' := by
  obtain ⟨dg, src, arr, rd, tLog, result⟩ := f
  simp only at h
  have hit : wp (s.iteration A dg src rd) w (fun o _ => ∀ s1 r, o = .ok (s1, r) → s1.cfg = s.cfg ∧ s1.throttle = s.throttle ∧
      (¬ 94 ≤ dg.length → s1.rl = s.rl ∧ r = .error .badSize) ∧
      (94 ≤ dg.length → s1.rl = (s.rl.check (normalizeIp src) s.cfg.maxPerIp s.cfg.maxGlobal rd).2 ∧
        ∀ e, (s.rl.check (normalizeIp src) s.cfg.maxPerIp s.cfg.maxGlobal rd).1 = .error e → r = .error e)) := by
    have hlen : (dg.take MSG_SIZE).length ≠ MSG_SIZE ↔ ¬ 94 ≤ dg.length := by
      have : MSG_SIZE = 94 := rfl
      rw [List.length_take, this]
      omega
    unfold Server.iteration
    by_cases hl : 94 ≤ dg.length
    · have h1 : ¬ (dg.take MSG_SIZE).length ≠ MSG_SIZE := fun h => hlen.1 h hl
      simp only [if_neg h1]
      rcases hc : s.rl.check (normalizeIp src) s.cfg.maxPerIp s.cfg.maxGlobal rd with ⟨verdict, rl⟩
      simp only
      cases verdict with
      | error e =>
        intro s1 r h
        cases h
        exact ⟨rfl, rfl, fun h => absurd hl h, fun _ => ⟨rfl, fun e' h => by cases h; rfl⟩⟩
      | ok u =>
        simp only
        cases Server.decryptMsg A { s with rl } (dg.take MSG_SIZE) with
        | error e =>
          intro s1 r h
          cases h
          exact ⟨rfl, rfl, fun h => absurd hl h, fun _ => ⟨rfl, fun e' h => by cases h⟩⟩
        | ok x =>
          obtain ⟨k, p⟩ := x
          simp only
          refine wp_mono (validateAndSend_keeps { s with rl } k p (normalizeIp src) w) ?_
          intro o w1 h1 s1 r ho
          obtain ⟨a, b, c⟩ := h1 s1 r ho
          exact ⟨c, b, fun h => absurd hl h, fun _ => ⟨a, fun e' h => by cases h⟩⟩
    · simp only [if_pos (hlen.2 hl)]
      intro s1 r h
      cases h
      exact ⟨rfl, rfl, fun _ => ⟨rfl, rfl⟩, fun h => absurd h hl⟩
  have hd : wp (s.handleDatagram A dg src rd tLog) w (fun o _ => ∀ s' r, o = .ok (s', r) → Accounted s ⟨dg, src, arr, rd, tLog, r⟩ s') := by
    unfold Server.handleDatagram
    rw [wp_bind]
    refine wp_mono hit ?_
    intro o w1 h1
    cases o with
    | crash => exact nofun
    | err e => exact nofun
    | ok x =>
      obtain ⟨s1, r⟩ := x
      obtain ⟨a, b, c, d⟩ := h1 s1 r rfl
      cases r with
      | error e =>
        intro s' r h
        cases h
        exact ⟨a, c, d, by simp only; rw [b]⟩
      | ok u =>
        intro s' r h
        cases h
        exact ⟨a, c, d, b⟩
  unfold wp at hd
  rw [h] at hd
  exact hd s' result rfl

/-- Over any sequence of datagrams the limiter of the server is in the state the sequence of its requests leads to, and what it refuses is not
processed any further. -/
theorem served_limit {A : Aead} {s s' : Server} {fs : List Finished} (h : Served A s fs s') :
    s'.cfg = s.cfg ∧ s'.rl = (limit s.cfg.maxPerIp s.cfg.maxGlobal s.rl (requests fs)).2 ∧
      ∀ p : Req → Bool, (fs.filter (fun f => f.passed && p ⟨normalizeIp f.src, f.arr, f.rd⟩)).length ≤
        (limit s.cfg.maxPerIp s.cfg.maxGlobal s.rl (requests fs)).1.countP (fun x => p x.1 && admitted x) := by
  induction h with
  | nil => exact ⟨rfl, rfl, fun p => by simp⟩
  | @cons s s1 s2 f fs w w' h hs ih =>
    obtain ⟨h1, h2, h3⟩ := ih
    have ha := handleDatagram_accounted A s s1 f w w' h
    refine ⟨by rw [h1, ha.cfg], ?_⟩
    by_cases hl : 94 ≤ f.dg.length
    · obtain ⟨a, b⟩ := ha.checked hl
      have hr : requests (f :: fs) = ⟨normalizeIp f.src, f.arr, f.rd⟩ :: requests fs := by
        unfold requests
        rw [List.filter_cons_of_pos (by simpa using hl)]
        rfl
      rw [hr]
      simp only [limit]
      rw [ha.cfg, a] at h2 h3
      refine ⟨h2, fun p => ?_⟩
      have h3 := h3 p
      rw [List.countP_cons]
      by_cases hp : (f.passed && p ⟨normalizeIp f.src, f.arr, f.rd⟩) = true
      · rw [List.filter_cons, if_pos hp, List.length_cons, if_pos]
        · omega
        · rw [Bool.and_eq_true] at hp ⊢
          refine ⟨hp.2, ?_⟩
          rcases C21_no_other_refusal s.rl s.cfg.maxPerIp s.cfg.maxGlobal (normalizeIp f.src) f.rd with hv | hv | hv
          · unfold admitted
            simp only [hv]
          · have hp := hp.1
            unfold Finished.passed at hp
            rw [b _ hv] at hp
            simp at hp
          · have hp := hp.1
            unfold Finished.passed at hp
            rw [b _ hv] at hp
            simp at hp
      · rw [List.filter_cons, if_neg hp]
        omega
    · have hr : requests (f :: fs) = requests fs := by
        unfold requests
        rw [List.filter_cons_of_neg (by simpa using hl)]
      rw [hr]
      rw [ha.cfg, (ha.short hl).1] at h2 h3
      refine ⟨h2, fun p => ?_⟩
      rw [List.filter_cons_of_neg]
      · exact h3 p
      · unfold Finished.passed
        simp [hl]

/-- **C19** for the server: whatever datagrams it is sent, in any second at most twice the per-source limit of datagrams of one source get past the
limiter. (`T` is any time; sources that are the IPv4-mapped form of each other count as one.) -/
theorem C19_server_own_limit (A : Aead) (s s' : Server) (fs : List Finished) (t0 : Nat) (h : Served A s fs s') (h0 : s.rl = RateLimiter.new t0)
    (ht : Timed t0 (requests fs)) (ip : Ip) (T : Nat) :
    (fs.filter (fun f => f.passed && (decide (normalizeIp f.src = ip) && decide (T ≤ f.rd.ipElapsed ∧ f.rd.ipElapsed < T + 1000000000)))).length ≤
      2 * max s.cfg.maxPerIp 1 := by
  have h1 := (served_limit h).2.2 (fun x => decide (x.ip = ip) && decide (T ≤ x.rd.ipElapsed ∧ x.rd.ipElapsed < T + 1000000000))
  rw [h0] at h1
  refine Nat.le_trans h1 (Nat.le_trans (Nat.le_of_eq ?_) (C19_own_limit_per_second s.cfg.maxPerIp s.cfg.maxGlobal t0 (requests fs) ht ip T))
  congr 1
  funext x
  cases decide (x.1.ip = ip) <;> cases admitted x <;> simp

/-- **C19** for the server: the same for all sources together. -/
theorem C19_server_global_limit (A : Aead) (s s' : Server) (fs : List Finished) (t0 : Nat) (h : Served A s fs s') (h0 : s.rl = RateLimiter.new t0)
    (ht : Timed t0 (requests fs)) (T : Nat) :
    (fs.filter (fun f => f.passed && decide (T ≤ f.rd.globalElapsed ∧ f.rd.globalElapsed < T + 1000000000))).length ≤ 2 * max s.cfg.maxGlobal 1 := by
  have h1 := (served_limit h).2.2 (fun x => decide (T ≤ x.rd.globalElapsed ∧ x.rd.globalElapsed < T + 1000000000))
  rw [h0] at h1
  refine Nat.le_trans h1 (Nat.le_trans (Nat.le_of_eq ?_) (C19_global_limit_per_second s.cfg.maxPerIp s.cfg.maxGlobal t0 (requests fs) ht T))
  congr 1
  funext x
  cases admitted x <;> simp

/-- **C22** for the server: after any sequence of datagrams the throttle is in the state that exactly the failures, at their times, lead to. With
`C22_lines_five_seconds_apart` and `C22_nothing_lost` this determines the error lines of a running server. -/
theorem C22_server_throttle (A : Aead) (s s' : Server) (fs : List Finished) (h : Served A s fs s') :
    s'.throttle = (throttle s.throttle (failures fs)).2 := by
  induction h with
  | nil => rfl
  | @cons s s1 s2 f fs w w' h hs ih =>
    have ha := (handleDatagram_accounted A s s1 f w w' h).throttle
    rw [ih, ha]
    obtain ⟨dg, src, arr, rd, tLog, result⟩ := f
    cases result with
    | ok u => rfl
    | error e => rfl

/-- The state after one datagram, for the example. -/
def exNext (s : Server) (dg : List Byte) : Server :=
  match (s.handleDatagram toyAead dg (.v4 0x0a000001) exReadings 10 (exWorld [])).1 with
  | .ok (s', _) => s'
  | _ => s

/-- The datagram is finished with this result, for the example. -/
def exEnds (s : Server) (dg : List Byte) (r : Except Err Unit) : Bool :=
  match (s.handleDatagram toyAead dg (.v4 0x0a000001) exReadings 10 (exWorld [])).1, r with
  | .ok (_, .ok ()), .ok () => true
  | .ok (_, .error e), .error e' => decide (e = e')
  | _, _ => false

theorem exEnds_step (s : Server) (dg : List Byte) (r : Except Err Unit) (h : exEnds s dg r = true) :
    s.handleDatagram toyAead dg (.v4 0x0a000001) exReadings 10 (exWorld []) =
      (.ok (exNext s dg, r), (s.handleDatagram toyAead dg (.v4 0x0a000001) exReadings 10 (exWorld [])).2) := by
  unfold exEnds at h
  unfold exNext
  generalize s.handleDatagram toyAead dg (.v4 0x0a000001) exReadings 10 (exWorld []) = x at h ⊢
  obtain ⟨o, w⟩ := x
  cases o with
  | crash => cases h
  | err e => cases h
  | ok p =>
    obtain ⟨s', r'⟩ := p
    cases r' <;> cases r <;> simp_all

/-- Non-vacuity: a runt, an acceptable datagram, and the same twice again: a replay first, then (limit 2) refused by the limiter. -/
example : ∃ s', Served toyAead exServer
      [⟨[1, 2, 3], .v4 0x0a000001, 10, exReadings, 10, .error .badSize⟩, ⟨exDatagram, .v4 0x0a000001, 10, exReadings, 10, .ok ()⟩,
       ⟨exDatagram, .v4 0x0a000001, 10, exReadings, 10, .error .replayed⟩, ⟨exDatagram, .v4 0x0a000001, 10, exReadings, 10, .error .rateIp⟩] s' :=
  ⟨_, .cons (exWorld []) _ (exEnds_step exServer [1, 2, 3] (.error .badSize) (by decide +kernel))
    (.cons (exWorld []) _ (exEnds_step _ exDatagram (.ok ()) (by decide +kernel))
      (.cons (exWorld []) _ (exEnds_step _ exDatagram (.error .replayed) (by decide +kernel))
        (.cons (exWorld []) _ (exEnds_step _ exDatagram (.error .rateIp) (by decide +kernel)) (.nil _))))⟩

end Ruroco
