import Verif.Props.Server
import Verif.Props.IpText
import Verif.Props.Run
import Verif.Props.Rate
import Verif.Spec.ServerLog

/-!
# C95: the server's log
-/

namespace Ruroco

open Spec (Acceptable Seals RateOk announcement accounts received forwards message Legitimate)

/-! ## One datagram -/

/-- What is written by an iteration, and what it did. -/
inductive Logged (A : Aead) (s : Server) (dg : List Byte) (src : Ip) (rd : Readings) (w : World) : List SrvEntry → Out (Server × Except Err Unit) → World → Prop
  | refused (e : Err) (rl : RateLimiter) (c : List (Option U128)) (hn : ∀ rl now c d, ¬ ActsWith A s dg src rd w rl now c d) :
      Logged A s dg src rd w [] (.ok ({ s with rl }, .error e)) { w with clock := c }
  | unsaved (rl : RateLimiter) (now : U128) (c : List (Option U128)) (d : ClientData) (e : Err) (w' : World) (ha : ActsWith A s dg src rd w rl now c d)
      (hs : Saved s.bl.path (s.bl.map.insert (dg.take 8) d.counter) (.err e) { w with clock := c } w') :
      Logged A s dg src rd w [announcement s dg src d] (.ok ({ s with rl }, .error .save)) w'
  | diedSaving (rl : RateLimiter) (now : U128) (c : List (Option U128)) (d : ClientData) (w' : World) (ha : ActsWith A s dg src rd w rl now c d)
      (hs : Saved s.bl.path (s.bl.map.insert (dg.take 8) d.counter) .crash { w with clock := c } w') :
      Logged A s dg src rd w [announcement s dg src d] .crash w'
  | sent (rl : RateLimiter) (now : U128) (c : List (Option U128)) (d : ClientData) (w1 w' : World) (ha : ActsWith A s dg src rd w rl now c d)
      (hs : Saved s.bl.path (s.bl.map.insert (dg.take 8) d.counter) (.ok ()) { w with clock := c } w1)
      (hf : Sent d.counter { cmdHash := d.cmdHash, ip := d.srcIp.getD (normalizeIp src) } (.ok ()) w1 w')
      (hw : forwards w'.log = forwards w1.log ++ [(w1.cur, d.counter, message d (normalizeIp src))]) :
      Logged A s dg src rd w [announcement s dg src d, .sent] (.ok ({ s with rl, bl := s.bl.upsert (dg.take 8) d.counter }, .ok ())) w'
  | notSent (rl : RateLimiter) (now : U128) (c : List (Option U128)) (d : ClientData) (w1 w' : World) (ha : ActsWith A s dg src rd w rl now c d)
      (hs : Saved s.bl.path (s.bl.map.insert (dg.take 8) d.counter) (.ok ()) { w with clock := c } w1)
      (hf : Sent d.counter { cmdHash := d.cmdHash, ip := d.srcIp.getD (normalizeIp src) } (.ok ()) w1 w') (hw : ¬ AllOk w1) :
      Logged A s dg src rd w [announcement s dg src d, .notSent] (.ok ({ s with rl, bl := s.bl.upsert (dg.take 8) d.counter }, .ok ())) w'
  | diedSending (rl : RateLimiter) (now : U128) (c : List (Option U128)) (d : ClientData) (w1 w' : World) (ha : ActsWith A s dg src rd w rl now c d)
      (hs : Saved s.bl.path (s.bl.map.insert (dg.take 8) d.counter) (.ok ()) { w with clock := c } w1)
      (hf : Sent d.counter { cmdHash := d.cmdHash, ip := d.srcIp.getD (normalizeIp src) } .crash w1 w') :
      Logged A s dg src rd w [announcement s dg src d] .crash w'

theorem take94 {dg : List Byte} (h : 94 ≤ dg.length) : ¬ (dg.take MSG_SIZE).length ≠ MSG_SIZE := by
  have : MSG_SIZE = 94 := rfl
  rw [this, List.length_take]
  omega

theorem decryptMsg_of_authenticates {A : Aead} {s : Server} {dg k pt : List Byte} (h : Authenticates A s dg k pt) : s.decryptMsg A (dg.take MSG_SIZE) = .ok (k, pt) := by
  obtain ⟨h1, rfl, hh, hg, hd⟩ := h
  have e8 : (dg.take MSG_SIZE).take 8 = dg.take 8 := by
    rw [List.take_take]; rfl
  unfold Server.decryptMsg decode
  show (match s.handlers.get ((dg.take MSG_SIZE).take 8) with
    | none => Except.error Err.unknownKey
    | some h => match h.decrypt A ((dg.take MSG_SIZE).drop 8) with
      | .error e => .error e
      | .ok p => .ok ((dg.take MSG_SIZE).take 8, p)) = _
  rw [e8, hg]
  show (match hh.decrypt A ((dg.take 94).drop 8) with
      | .error e => Except.error e
      | .ok p => .ok (dg.take 8, p)) = _
  rw [hd]

theorem nowNanos_some {w : World} {now : U128} {c : List (Option U128)} (h : w.clock = some now :: c) : nowNanos.attempt w = (.ok (.ok now), { w with clock := c }) := by
  unfold nowNanos Act.attempt
  simp only [h]

/-- What is written, and what is done, about an acceptable request. -/
theorem acts_log {A : Aead} {s : Server} {dg : List Byte} {src : Ip} {rd : Readings} {w : World} {rl : RateLimiter} {now : U128} {c : List (Option U128)} {d : ClientData}
    (ha : ActsWith A s dg src rd w rl now c d) :
    s.iterationLog A dg src rd w = announcement s dg src d ::
      (match ({ s with rl } : Server).updateBlockList (dg.take 8) d.counter { w with clock := c } with
        | (.ok (_, .ok ()), w2) => sendLog d.counter { cmdHash := d.cmdHash, ip := d.srcIp.getD (normalizeIp src) } w2
        | _ => []) ∧
    s.iteration A dg src rd w = ({ s with rl } : Server).act (dg.take 8) (normalizeIp src) d { w with clock := c } := by
  obtain ⟨k, pt, hau, hde⟩ := authenticates_iff.2 ⟨ha.acc.size, ha.acc.sealed⟩
  have hk : k = dg.take 8 := hau.2.1
  have hp := (passes_iff rl hau hde (now := now) (src := src)).2 ha.acc
  subst hk
  have i1 : ¬ ({ s with rl } : Server).bl.isCounterReplayed (dg.take 8) d.counter = true := by
    rw [isCounterReplayed_false.2 hp.fresh]; simp
  have i2 : ¬ d.counter.toNat > (maxFutureCounter now s.cfg.skewSeconds).toNat := Nat.not_lt.2 ((maxFutureCounter_toNat _ _ _).2 hp.notFuture)
  have i3 : ¬ (!s.cfg.ips.contains d.dstIp) = true := by
    have : s.cfg.ips.contains d.dstIp = true := by simpa using hp.dst
    rw [this]; simp
  have i4 : ¬ d.isSourceIpInvalid (normalizeIp src) = true := by
    rw [isSourceIpInvalid_false.2 hp.src]; simp
  have hr : s.rl.check (normalizeIp src) s.cfg.maxPerIp s.cfg.maxGlobal rd = (.ok (), rl) := ha.rate
  have hdm := decryptMsg_of_authenticates hau
  have hdm' : ({ s with rl } : Server).decryptMsg A (dg.take MSG_SIZE) = .ok (dg.take 8, pt) := hdm
  constructor
  · unfold Server.iterationLog
    simp only
    rw [if_neg (take94 ha.acc.size), hr]
    simp only
    rw [hdm]
    simp only
    unfold Server.validateLog
    rw [nowNanos_some ha.clock]
    simp only
    rw [hde]
    simp only
    rw [if_neg i1, if_neg i2, if_neg i3, if_neg i4]
    rfl
  · unfold Server.iteration
    simp only
    rw [if_neg (take94 ha.acc.size), hr]
    simp only
    rw [hdm']
    simp only
    unfold Server.validateAndSend
    show Act.bind nowNanos.attempt _ w = _
    unfold Act.bind
    rw [nowNanos_some ha.clock]
    simp only
    rw [hde]
    simp only
    rw [if_neg i1, if_neg i2, if_neg i3, if_neg i4]
    rfl

/-- Nothing is written before the line of the throttle unless the request is acceptable. -/
theorem log_acts {A : Aead} {s : Server} {dg : List Byte} {src : Ip} {rd : Readings} {w : World} (h : s.iterationLog A dg src rd w ≠ []) :
    ∃ rl now c d, ActsWith A s dg src rd w rl now c d := by
  unfold Server.iterationLog at h
  simp only at h
  split at h
  · exact absurd rfl h
  rename_i hl
  have h94 : 94 ≤ dg.length := by
    have : MSG_SIZE = 94 := rfl
    rw [this, List.length_take] at hl
    omega
  rcases hr : s.rl.check (normalizeIp src) s.cfg.maxPerIp s.cfg.maxGlobal rd with ⟨v, rl⟩
  rw [hr] at h
  cases v with
  | error e => exact absurd rfl h
  | ok u =>
    simp only at h
    cases hd : s.decryptMsg A (dg.take MSG_SIZE) with
    | error e => rw [hd] at h; exact absurd rfl h
    | ok kp =>
      obtain ⟨k, pt⟩ := kp
      rw [hd] at h
      simp only at h
      have e8 : (dg.take MSG_SIZE).take 8 = dg.take 8 := by
        rw [List.take_take]; rfl
      have hau : Authenticates A s dg k pt := by
        unfold Server.decryptMsg decode at hd
        simp only at hd
        split at hd
        · cases hd
        · rename_i hh hg
          split at hd
          · cases hd
          · rename_i p hp
            cases hd
            refine ⟨h94, e8, hh, hg, hp⟩
      unfold Server.validateLog at h
      rcases hc : w.clock with _ | ⟨t, c⟩
      · unfold nowNanos Act.attempt at h
        simp only [hc] at h
        exact absurd rfl h
      · cases t with
        | none =>
          unfold nowNanos Act.attempt at h
          simp only [hc] at h
          exact absurd rfl h
        | some now =>
          rw [nowNanos_some hc] at h
          simp only at h
          cases hde : ClientData.deserialize pt with
          | error e => rw [hde] at h; exact absurd rfl h
          | ok d =>
            rw [hde] at h
            simp only at h
            split at h
            · exact absurd rfl h
            rename_i i1
            split at h
            · exact absurd rfl h
            rename_i i2
            split at h
            · exact absurd rfl h
            rename_i i3
            split at h
            · exact absurd rfl h
            rename_i i4
            refine ⟨rl, now, c, d, hr, hc, ?_⟩
            refine (passes_iff rl hau hde).1 ⟨isCounterReplayed_false.1 (by simpa using i1), (maxFutureCounter_toNat _ _ _).1 (Nat.le_of_not_gt i2), by simpa using i3,
              isSourceIpInvalid_false.1 (by simpa using i4)⟩

/-- What `send_command` writes, and what it did. -/
theorem sendLog_cases (counter : U128) (d : CommanderData) (w : World) :
    (sendLog counter d w = [.sent] ∧ (sendCommand counter d w).1 = .ok () ∧ forwards (sendCommand counter d w).2.log = forwards w.log ++ [(w.cur, counter, d.toBytes)]) ∨
    (sendLog counter d w = [.notSent] ∧ (sendCommand counter d w).1 = .ok () ∧ ¬ AllOk w) ∨
    (sendLog counter d w = [] ∧ (sendCommand counter d w).1 = .crash) := by
  unfold sendLog sendCommand writeToSocket atomicCall syscall Act.attempt
  simp only [bind, Act.bind, pure, Act.pure, id]
  rcases h1 : w.oracle with _ | ⟨c1, o1⟩
  · left; simp [forwards]
  · cases c1 with
    | err k =>
      right; left
      refine ⟨rfl, rfl, fun h => ?_⟩
      have := h (.err k) (by rw [h1]; simp); cases this
    | crash k => right; right; simp
    | ok =>
      simp only
      rcases o1 with _ | ⟨c2, o2⟩
      · left; simp [forwards]
      · cases c2 with
        | err k =>
          right; left
          refine ⟨rfl, rfl, fun h => ?_⟩
          have := h (.err k) (by rw [h1]; simp); cases this
        | crash k => right; right; simp
        | ok =>
          simp only
          rcases o2 with _ | ⟨c3, o3⟩
          · left; simp [forwards]
          · cases c3 with
            | ok => left; simp [forwards]
            | err k =>
              right; left
              refine ⟨rfl, rfl, fun h => ?_⟩
              have := h (.err k) (by rw [h1]; simp); cases this
            | crash k => right; right; simp

/-- **Case analysis of one datagram, with the log.** -/
theorem iteration_logged (A : Aead) (s : Server) (hb : s.bl.Wf) (dg : List Byte) (src : Ip) (rd : Readings) (w : World) :
    Logged A s dg src rd w (s.iterationLog A dg src rd w) (s.iteration A dg src rd w).1 (s.iteration A dg src rd w).2 := by
  by_cases hx : ∃ rl now c d, ActsWith A s dg src rd w rl now c d
  · obtain ⟨rl, now, c, d, ha⟩ := hx
    obtain ⟨e1, e2⟩ := acts_log ha
    rw [e1, e2]
    have hk : (dg.take 8).length = 8 := by
      rw [List.length_take]; have := ha.acc.size; omega
    have hu := wp_updateBlockList { s with rl } hb (dg.take 8) hk d.counter { w with clock := c }
      (fun o w1 => Logged A s dg src rd w (announcement s dg src d ::
          (match (o, w1) with
            | (.ok (_, .ok ()), w2) => sendLog d.counter { cmdHash := d.cmdHash, ip := d.srcIp.getD (normalizeIp src) } w2
            | _ => []))
        (match o with
          | .ok (s', .error e) => .ok (s', .error e)
          | .ok (s', .ok ()) => (match (sendCommand d.counter { cmdHash := d.cmdHash, ip := d.srcIp.getD (normalizeIp src) } w1).1 with
            | .ok () => .ok (s', .ok ())
            | .err e => .err e
            | .crash => .crash)
          | .err e => .err e
          | .crash => .crash)
        (match o with
          | .ok (_, .ok ()) => (sendCommand d.counter { cmdHash := d.cmdHash, ip := d.srcIp.getD (normalizeIp src) } w1).2
          | _ => w1))
      (by
        intro w1 hs
        simp only
        have hf := sendCommand_spec d.counter { cmdHash := d.cmdHash, ip := d.srcIp.getD (normalizeIp src) } w1
        unfold wp at hf
        rcases sendLog_cases d.counter { cmdHash := d.cmdHash, ip := d.srcIp.getD (normalizeIp src) } w1 with ⟨e1, e2, e3⟩ | ⟨e1, e2, e3⟩ | ⟨e1, e2⟩
        · rw [e2] at hf
          rw [e1, e2]
          exact .sent rl now c d w1 _ ha hs hf e3
        · rw [e2] at hf
          rw [e1, e2]
          exact .notSent rl now c d w1 _ ha hs hf e3
        · rw [e2] at hf
          rw [e1, e2]
          exact .diedSending rl now c d w1 _ ha hs hf)
      (by
        intro e w1 hs
        exact .unsaved rl now c d e w1 ha hs)
      (by
        intro w1 hs
        exact .diedSaving rl now c d w1 ha hs)
    unfold wp at hu
    have eact : ({ s with rl } : Server).act (dg.take 8) (normalizeIp src) d { w with clock := c } =
        (match ({ s with rl } : Server).updateBlockList (dg.take 8) d.counter { w with clock := c } with
          | (.ok (s', .error e), w1) => (.ok (s', .error e), w1)
          | (.ok (s', .ok ()), w1) => (match sendCommand d.counter { cmdHash := d.cmdHash, ip := d.srcIp.getD (normalizeIp src) } w1 with
            | (.ok (), w2) => (.ok (s', .ok ()), w2)
            | (.err e, w2) => (.err e, w2)
            | (.crash, w2) => (.crash, w2))
          | (.err e, w1) => (.err e, w1)
          | (.crash, w1) => (.crash, w1)) := by
      unfold Server.act
      show Act.bind _ _ _ = _
      unfold Act.bind
      rcases ({ s with rl } : Server).updateBlockList (dg.take 8) d.counter { w with clock := c } with ⟨o, w1⟩
      cases o with
      | err e => rfl
      | crash => rfl
      | ok x =>
        obtain ⟨s', r⟩ := x
        cases r with
        | error e => rfl
        | ok u =>
          simp only
          show Act.bind _ _ _ = _
          unfold Act.bind
          rcases sendCommand d.counter { cmdHash := d.cmdHash, ip := d.srcIp.getD (normalizeIp src) } w1 with ⟨o2, w2⟩
          cases o2 <;> rfl
    rw [eact]
    rcases hupd : ({ s with rl } : Server).updateBlockList (dg.take 8) d.counter { w with clock := c } with ⟨o, w1⟩
    rw [hupd] at hu
    cases o with
    | err e => exact hu
    | crash => exact hu
    | ok x =>
      obtain ⟨s', r⟩ := x
      cases r with
      | error e => exact hu
      | ok u =>
        simp only at hu ⊢
        rcases hsc : sendCommand d.counter { cmdHash := d.cmdHash, ip := d.srcIp.getD (normalizeIp src) } w1 with ⟨o2, w2⟩
        rw [hsc] at hu
        cases o2 <;> exact hu
  · have hnil : s.iterationLog A dg src rd w = [] := by
      by_cases h : s.iterationLog A dg src rd w = []
      · exact h
      · exact absurd (log_acts h) hx
    have hh := iteration_handled A s hb dg src rd w
    unfold wp at hh
    rw [hnil]
    generalize (s.iteration A dg src rd w).1 = o, (s.iteration A dg src rd w).2 = w' at hh
    cases hh with
    | rejected e rl c he hn hrl => exact .refused e rl c hn
    | saveFailed rl now c d e _ ha hs => exact absurd ⟨rl, now, c, d, ha⟩ hx
    | saveCrashed rl now c d _ ha hs => exact absurd ⟨rl, now, c, d, ha⟩ hx
    | acted rl now c d w1 _ ha hs hf => exact absurd ⟨rl, now, c, d, ha⟩ hx
    | sendCrashed rl now c d w1 _ ha hs hf => exact absurd ⟨rl, now, c, d, ha⟩ hx

/-- The processing of a datagram with the throttle, from the iteration. -/
theorem handleDatagram_eq (A : Aead) (s : Server) (dg : List Byte) (src : Ip) (rd : Readings) (tl : Nat) (w : World) :
    s.handleDatagram A dg src rd tl w =
      (match (s.iteration A dg src rd w).1 with
        | .ok (s', .error e) => .ok ({ s' with throttle := (s'.throttle.log tl).2 }, .error e)
        | .ok (s', .ok ()) => .ok (s', .ok ())
        | .err e => .err e
        | .crash => .crash, (s.iteration A dg src rd w).2) := by
  unfold Server.handleDatagram
  show Act.bind _ _ _ = _
  unfold Act.bind
  rcases s.iteration A dg src rd w with ⟨o, w'⟩
  cases o with
  | err e => rfl
  | crash => rfl
  | ok x =>
    obtain ⟨s', r⟩ := x
    cases r <;> rfl

/-- **C95a.** Whatever reaches the commander was announced: when processing a datagram hands anything to the commander, the first line written about it is the announcement of the request that was
handed over, and that request was legitimate. This is also so if the process is killed at any point. -/
theorem C95_forward_is_announced (A : Aead) (s : Server) (hb : s.bl.Wf) (dg : List Byte) (src : Ip) (rd : Readings) (tl : Nat) (w w' : World) (o : Out (Server × Except Err Unit))
    (h : s.handleDatagram A dg src rd tl w = (o, w')) (hf : forwards w'.log ≠ forwards w.log) :
    ∃ d k rest, Legitimate A s dg src w d ∧ s.handleLog A dg src rd tl w = announcement s dg src d :: rest ∧
      forwards w'.log = forwards w.log ++ [(w.cur, d.counter, (message d (normalizeIp src)).take k)] := by
  have hl := iteration_logged A s hb dg src rd w
  rw [handleDatagram_eq] at h
  obtain ⟨_, rfl⟩ := Prod.mk.inj h
  clear h
  have full : ∀ d : ClientData, (message d (normalizeIp src)).take 24 = message d (normalizeIp src) := fun d => List.take_of_length_le (by
    unfold message; rw [toBytes_length]; exact Nat.le_refl _)
  unfold Server.handleLog
  generalize s.iterationLog A dg src rd w = l, (s.iteration A dg src rd w).1 = o', (s.iteration A dg src rd w).2 = w' at hl hf ⊢
  cases hl with
  | refused e rl c hn => exact absurd rfl hf
  | unsaved rl now c d e _ ha hs => exact absurd hs.forwards hf
  | diedSaving rl now c d _ ha hs => exact absurd hs.forwards hf
  | sent rl now c d w1 _ ha hs hse hw =>
    refine ⟨d, 24, _, ⟨now, c, ha.clock, ha.acc⟩, rfl, ?_⟩
    rw [hw, hs.forwards, hs.cur, full]
  | notSent rl now c d w1 _ ha hs hse hw =>
    rcases hse.forwards with e2 | ⟨k, e2⟩
    · exact absurd (e2.trans hs.forwards) hf
    · refine ⟨d, k, _, ⟨now, c, ha.clock, ha.acc⟩, rfl, ?_⟩
      rw [e2, hs.forwards, hs.cur]; rfl
  | diedSending rl now c d w1 _ ha hs hse =>
    rcases hse.forwards with e2 | ⟨k, e2⟩
    · exact absurd (e2.trans hs.forwards) hf
    · refine ⟨d, k, _, ⟨now, c, ha.clock, ha.acc⟩, rfl, ?_⟩
      rw [e2, hs.forwards, hs.cur]; rfl

/-- A line of the throttle is no announcement and no outcome. -/
theorem throttle_line {o : Out (Server × Except Err Unit)} {tl : Nat} {x : SrvEntry}
    (h : x ∈ throttleLog tl o) : ∃ s' e n, o = .ok (s', .error e) ∧ (s'.throttle.log tl).1 = some n ∧ x = .failure e n := by
  cases o with
  | err e => cases h
  | crash => cases h
  | ok y =>
    obtain ⟨s', r⟩ := y
    cases r with
    | ok u => cases h
    | error e =>
      have h : x ∈ ((s'.throttle.log tl).1.map (SrvEntry.failure e)).toList := h
      cases hn : (s'.throttle.log tl).1 with
      | none => rw [hn] at h; cases h
      | some n =>
        rw [hn] at h
        exact ⟨s', e, n, rfl, hn, by simpa using h⟩

/-- **C95b.** An announcement is true: it is written only about a legitimate request, and it names the key that sealed it, what was asked for, its counter, the counter stored so far and the address. -/
theorem C95_announcement_is_true (A : Aead) (s : Server) (hb : s.bl.Wf) (dg : List Byte) (src : Ip) (rd : Readings) (tl : Nat) (w : World) (k : List Byte) (cmd : U64) (ctr : U128) (rec : Option U128)
    (ip : Ip) (h : SrvEntry.valid k cmd ctr rec ip ∈ s.handleLog A dg src rd tl w) :
    ∃ d, Legitimate A s dg src w d ∧ SrvEntry.valid k cmd ctr rec ip = announcement s dg src d := by
  have hl := iteration_logged A s hb dg src rd w
  unfold Server.handleLog at h
  rw [List.mem_append] at h
  rcases h with h | h
  · generalize s.iterationLog A dg src rd w = l, (s.iteration A dg src rd w).1 = o', (s.iteration A dg src rd w).2 = w' at hl h
    cases hl with
    | refused e rl c hn => cases h
    | unsaved rl now c d e _ ha hs => exact ⟨d, ⟨now, c, ha.clock, ha.acc⟩, by simpa using h⟩
    | diedSaving rl now c d _ ha hs => exact ⟨d, ⟨now, c, ha.clock, ha.acc⟩, by simpa using h⟩
    | sent rl now c d w1 _ ha hs hse hw => exact ⟨d, ⟨now, c, ha.clock, ha.acc⟩, by simpa using h⟩
    | notSent rl now c d w1 _ ha hs hse hw => exact ⟨d, ⟨now, c, ha.clock, ha.acc⟩, by simpa using h⟩
    | diedSending rl now c d w1 _ ha hs hse => exact ⟨d, ⟨now, c, ha.clock, ha.acc⟩, by simpa using h⟩
  · obtain ⟨_, _, _, _, _, e⟩ := throttle_line h
    cases e

/-- **C95c.** "Successfully sent" is true: it is written, right after the announcement and last, only if the whole message of the announced request was handed over, once, and its counter was on disk
before. -/
theorem C95_success_is_true (A : Aead) (s : Server) (hb : s.bl.Wf) (dg : List Byte) (src : Ip) (rd : Readings) (tl : Nat) (w w' : World) (o : Out (Server × Except Err Unit))
    (h : s.handleDatagram A dg src rd tl w = (o, w')) (hm : SrvEntry.sent ∈ s.handleLog A dg src rd tl w) :
    ∃ d, Legitimate A s dg src w d ∧ s.handleLog A dg src rd tl w = [announcement s dg src d, .sent] ∧
      forwards w'.log = forwards w.log ++ [(w.cur, d.counter, message d (normalizeIp src))] ∧
      DiskHolds (w'.fs s.bl.path) (s.bl.map.insert (dg.take 8) d.counter) ∧ ∃ s', o = .ok (s', .ok ()) := by
  have hl := iteration_logged A s hb dg src rd w
  rw [handleDatagram_eq] at h
  obtain ⟨rfl, rfl⟩ := Prod.mk.inj h
  clear h
  unfold Server.handleLog at hm ⊢
  rw [List.mem_append] at hm
  have hm' : SrvEntry.sent ∈ s.iterationLog A dg src rd w := by
    rcases hm with h | h
    · exact h
    · obtain ⟨_, _, _, _, _, e⟩ := throttle_line h
      cases e
  clear hm
  generalize s.iterationLog A dg src rd w = l, (s.iteration A dg src rd w).1 = o', (s.iteration A dg src rd w).2 = w' at hl hm' ⊢
  cases hl with
  | refused e rl c hn => cases hm'
  | unsaved rl now c d e _ ha hs => simp [announcement] at hm'
  | diedSaving rl now c d _ ha hs => simp [announcement] at hm'
  | notSent rl now c d w1 _ ha hs hse hw => simp [announcement] at hm'
  | diedSending rl now c d w1 _ ha hs hse => simp [announcement] at hm'
  | sent rl now c d w1 _ ha hs hse hw =>
    refine ⟨d, ⟨now, c, ha.clock, ha.acc⟩, rfl, ?_, ?_, _, rfl⟩
    · rw [hw, hs.forwards, hs.cur]
    · rw [hse.fs]
      rcases hs.result with ⟨_, _, hne⟩ | ⟨hd, _⟩
      · exact absurd rfl hne
      · exact hd

/-- **C95d.** A reported failure is true, and nothing was done for that datagram: nothing was handed over, and the stored counters are unchanged. -/
theorem C95_failure_is_true (A : Aead) (s : Server) (hb : s.bl.Wf) (dg : List Byte) (src : Ip) (rd : Readings) (tl : Nat) (w w' : World) (o : Out (Server × Except Err Unit))
    (h : s.handleDatagram A dg src rd tl w = (o, w')) (e : Err) (n : Nat) (hm : SrvEntry.failure e n ∈ s.handleLog A dg src rd tl w) :
    (∃ s', o = .ok (s', .error e) ∧ s'.bl = s.bl) ∧ forwards w'.log = forwards w.log ∧ n = s.throttle.suppressed ∧
      (e = .save ∨ ¬ ∃ rl d, RateOk s src rd rl ∧ Legitimate A s dg src w d) := by
  have hl := iteration_logged A s hb dg src rd w
  rw [handleDatagram_eq] at h
  obtain ⟨rfl, rfl⟩ := Prod.mk.inj h
  clear h
  unfold Server.handleLog at hm
  rw [List.mem_append] at hm
  generalize s.iterationLog A dg src rd w = l, (s.iteration A dg src rd w).1 = o', (s.iteration A dg src rd w).2 = w' at hl hm ⊢
  have fst : ∀ (rl : RateLimiter) (n : Nat), (({ s with rl } : Server).throttle.log tl).1 = some n → n = s.throttle.suppressed := by
    intro rl n hn
    rcases log_cases s.throttle tl with h | h
    · have : (s.throttle.log tl).1 = some n := hn
      rw [h] at this; cases this
    · have : (s.throttle.log tl).1 = some n := hn
      rw [h] at this
      exact (Option.some.inj this).symm
  cases hl with
  | refused e' rl c hn =>
    rcases hm with hm | hm
    · cases hm
    · obtain ⟨s', e2, n2, ho, hth, hx⟩ := throttle_line hm
      cases hx
      cases ho
      refine ⟨⟨_, rfl, rfl⟩, rfl, fst rl _ hth, Or.inr ?_⟩
      rintro ⟨rl', d, hr, now, c', hcl, ha⟩
      exact hn rl' now c' d ⟨hr, hcl, ha⟩
  | unsaved rl now c d e' _ ha hs =>
    rcases hm with hm | hm
    · simp [announcement] at hm
    · obtain ⟨s', e2, n2, ho, hth, hx⟩ := throttle_line hm
      cases hx
      cases ho
      exact ⟨⟨_, rfl, rfl⟩, hs.forwards, fst rl _ hth, Or.inl rfl⟩
  | diedSaving rl now c d _ ha hs =>
    rcases hm with hm | hm
    · simp [announcement] at hm
    · obtain ⟨s', e2, n2, ho, _⟩ := throttle_line hm
      cases ho
  | sent rl now c d w1 _ ha hs hse hw =>
    rcases hm with hm | hm
    · simp [announcement] at hm
    · obtain ⟨s', e2, n2, ho, _⟩ := throttle_line hm
      cases ho
  | notSent rl now c d w1 _ ha hs hse hw =>
    rcases hm with hm | hm
    · simp [announcement] at hm
    · obtain ⟨s', e2, n2, ho, _⟩ := throttle_line hm
      cases ho
  | diedSending rl now c d w1 _ ha hs hse =>
    rcases hm with hm | hm
    · simp [announcement] at hm
    · obtain ⟨s', e2, n2, ho, _⟩ := throttle_line hm
      cases ho

/-- **C95e.** The outcome of a request can be read off: a legitimate request that the limiter lets pass, processed to the end, is announced, and next comes "Successfully sent", or an error, or the request
was not carried out at all because its counter could not be stored. -/
theorem C95_outcome_is_told_partial (A : Aead) (s : Server) (hb : s.bl.Wf) (dg : List Byte) (src : Ip) (rd : Readings) (tl : Nat) (w w' : World) (s' : Server) (r : Except Err Unit)
    (h : s.handleDatagram A dg src rd tl w = (.ok (s', r), w')) (rl : RateLimiter) (hr : RateOk s src rd rl) (d : ClientData) (hd : Legitimate A s dg src w d) :
    (s.handleLog A dg src rd tl w = [announcement s dg src d, .sent] ∧ r = .ok ()) ∨
    (s.handleLog A dg src rd tl w = [announcement s dg src d, .notSent] ∧ r = .ok ()) ∨
    (r = .error .save ∧ forwards w'.log = forwards w.log ∧ (s.handleLog A dg src rd tl w = [announcement s dg src d] ∨
      s.handleLog A dg src rd tl w = [announcement s dg src d, .failure .save s.throttle.suppressed])) := by
  have hl := iteration_logged A s hb dg src rd w
  obtain ⟨now0, c0, hc0, ha0⟩ := hd
  have uniq : ∀ {rl' now' c' d'}, ActsWith A s dg src rd w rl' now' c' d' → d' = d := by
    intro rl' now' c' d' ha'
    obtain ⟨k1, p1, a1, e1⟩ := authenticates_iff.2 ⟨ha0.size, ha0.sealed⟩
    obtain ⟨k2, p2, a2, e2⟩ := authenticates_iff.2 ⟨ha'.acc.size, ha'.acc.sealed⟩
    obtain ⟨_, rfl⟩ := authenticates_unique a1 a2
    rw [e1] at e2
    exact (Except.ok.inj e2).symm
  rw [handleDatagram_eq] at h
  obtain ⟨ho, rfl⟩ := Prod.mk.inj h
  clear h
  unfold Server.handleLog
  generalize s.iterationLog A dg src rd w = l, (s.iteration A dg src rd w).1 = o', (s.iteration A dg src rd w).2 = w' at hl ho ⊢
  cases hl with
  | refused e' rl1 c hn => exact absurd ⟨hr, hc0, ha0⟩ (hn rl now0 c0 d)
  | unsaved rl now c d' e' _ ha hs =>
    cases uniq ha
    cases ho
    refine Or.inr (Or.inr ⟨rfl, hs.forwards, ?_⟩)
    rcases log_cases s.throttle tl with h | h
    · left
      show [announcement s dg src d] ++ ((s.throttle.log tl).1.map (SrvEntry.failure .save)).toList = _
      rw [h]; rfl
    · right
      show [announcement s dg src d] ++ ((s.throttle.log tl).1.map (SrvEntry.failure .save)).toList = _
      rw [h]; rfl
  | diedSaving rl now c d' _ ha hs => cases ho
  | sent rl now c d' w1 _ ha hs hse hw => cases uniq ha; cases ho; exact Or.inl ⟨rfl, rfl⟩
  | notSent rl now c d' w1 _ ha hs hse hw => cases uniq ha; cases ho; exact Or.inr (Or.inl ⟨rfl, rfl⟩)
  | diedSending rl now c d' w1 _ ha hs hse => cases ho

/-- **C95e'.** The level tells success from failure: a legitimate request that the limiter lets pass, processed to the end, either is reported as sent, with nothing written as an error; or has an error line;
or its counter could not be stored and the error line was suppressed. -/
theorem C95_level_tells_partial (A : Aead) (s : Server) (hb : s.bl.Wf) (dg : List Byte) (src : Ip) (rd : Readings) (tl : Nat) (w w' : World) (s' : Server) (r : Except Err Unit)
    (h : s.handleDatagram A dg src rd tl w = (.ok (s', r), w')) (rl : RateLimiter) (hr : RateOk s src rd rl) (d : ClientData) (hd : Legitimate A s dg src w d) :
    (SrvEntry.sent ∈ s.handleLog A dg src rd tl w ∧ ∀ x ∈ s.handleLog A dg src rd tl w, x.isInfo = true) ∨
    (SrvEntry.sent ∉ s.handleLog A dg src rd tl w ∧ ∃ x ∈ s.handleLog A dg src rd tl w, x.isInfo = false) ∨
    (r = .error .save ∧ s.handleLog A dg src rd tl w = [announcement s dg src d]) := by
  rcases C95_outcome_is_told_partial A s hb dg src rd tl w w' s' r h rl hr d hd with ⟨e, _⟩ | ⟨e, _⟩ | ⟨he, _, e | e⟩
  · left
    rw [e]
    refine ⟨by simp, ?_⟩
    intro x hx
    rcases List.mem_cons.1 hx with rfl | hx
    · rfl
    · cases List.mem_singleton.1 hx; rfl
  · right; left
    rw [e]
    exact ⟨by simp [announcement], .notSent, by simp, rfl⟩
  · exact Or.inr (Or.inr ⟨he, e⟩)
  · right; left
    rw [e]
    exact ⟨by simp [announcement], .failure .save s.throttle.suppressed, by simp, rfl⟩

/-! ## The whole log -/

/-- The lines about one datagram account for exactly one, up to the change of the number of suppressed lines. -/
theorem handleLog_accounts (A : Aead) (s : Server) (hb : s.bl.Wf) (dg : List Byte) (src : Ip) (rd : Readings) (tl : Nat) (w w' : World) (s' : Server) (r : Except Err Unit)
    (h : s.handleDatagram A dg src rd tl w = (.ok (s', r), w')) :
    s.throttle.suppressed + 1 = ((s.handleLog A dg src rd tl w).map accounts).sum + s'.throttle.suppressed := by
  have hl := iteration_logged A s hb dg src rd w
  rw [handleDatagram_eq] at h
  obtain ⟨ho, rfl⟩ := Prod.mk.inj h
  clear h
  unfold Server.handleLog
  generalize s.iterationLog A dg src rd w = l, (s.iteration A dg src rd w).1 = o', (s.iteration A dg src rd w).2 = w' at hl ho ⊢
  cases hl with
  | refused e' rl c hn =>
    cases ho
    show s.throttle.suppressed + 1 = ((([] : List SrvEntry) ++ ((s.throttle.log tl).1.map (SrvEntry.failure e')).toList).map accounts).sum + (s.throttle.log tl).2.suppressed
    rcases log_cases s.throttle tl with h | h <;> rw [h] <;> simp [accounts] <;> omega
  | unsaved rl now c d' e' _ ha hs =>
    cases ho
    show s.throttle.suppressed + 1 = (([announcement s dg src d'] ++ ((s.throttle.log tl).1.map (SrvEntry.failure .save)).toList).map accounts).sum + (s.throttle.log tl).2.suppressed
    rcases log_cases s.throttle tl with h | h <;> rw [h] <;> simp [accounts, announcement] <;> omega
  | diedSaving rl now c d' _ ha hs => cases ho
  | sent rl now c d' w1 _ ha hs hse hw => cases ho; simp [accounts, announcement, throttleLog]; omega
  | notSent rl now c d' w1 _ ha hs hse hw => cases ho; simp [accounts, announcement, throttleLog]; omega
  | diedSending rl now c d' w1 _ ha hs hse => cases ho

/-- **C95f.** Every datagram is accounted for: as long as the server runs, the datagrams received so far are those whose outcome is in the log, those with a failure line, those these lines say were
suppressed, and those suppressed since the last line. -/
theorem C95_all_accounted_for (A : Aead) (ts : List Turn) : ∀ (s : Server) (_ : s.bl.Wf) (w w' : World) (s' : Server) (_ : runLoop A s w ts = (.running s', w')),
    s.throttle.suppressed + received ts = ((runLog A s w ts).flatten.map accounts).sum + s'.throttle.suppressed := by
  induction ts with
  | nil =>
    intro s hb w w' s' h
    cases h
    simp [received, runLog]
  | cons t ts ih =>
    intro s hb w w' s' h
    unfold runLoop at h
    unfold runLog received
    split at h
    · cases h
    · rename_i hs
      rw [if_neg hs]
      cases hrv : t.recv with
      | fatal => rw [hrv] at h; cases h
      | retry =>
        rw [hrv] at h
        simp only at h ⊢
        rw [Nat.zero_add]
        exact ih s hb w w' s' h
      | datagram dg src rd tl =>
        rw [hrv] at h
        simp only at h ⊢
        rcases hh : s.handleDatagram A dg src rd tl (w.withEnv t.env (dg.take MSG_SIZE)) with ⟨o, w1⟩
        rw [hh] at h
        cases o with
        | err e => cases h
        | crash => cases h
        | ok x =>
          obtain ⟨s1, r⟩ := x
          simp only at h ⊢
          have hb1 : s1.bl.Wf := by
            have hspec := handleDatagram_spec A s hb dg src rd tl (w.withEnv t.env (dg.take MSG_SIZE))
            unfold wp at hspec
            rw [hh] at hspec
            have h3 := packetCase_of_handled hspec
            generalize hs : Out.server (.ok (s1, r)) = os at h3
            have hs : os = some s1 := hs.symm
            cases h3 with
            | nothing _ _ e => cases hs; rw [e]; exact hb
            | saved _ _ _ _ _ _ _ _ _ hx => rw [(hx _ hs).1]; exact hb
            | acted _ _ _ ha _ _ _ _ _ hx => rw [(hx _ hs).1]; exact insert_wf_of_acceptable hb ha
          have h1 := handleLog_accounts A s hb dg src rd tl _ w1 s1 r hh
          have h2 := ih s1 hb1 w1 w' s' h
          simp only [List.flatten_cons, List.map_append, List.sum_append]
          omega

/-! ## The refuted part -/

/-- The example server shortly after it reported another failure. -/
def exBusy : Server := { exServer with throttle := ⟨some 1000000000, 0⟩ }

/-- **C95g** (refutes "a failure to carry out an accepted request is logged as an error"): a legitimate request whose counter can not be stored is not executed, and if any other failure was reported in
the last five seconds, no error line says so. All that is visible is that no "Successfully sent" follows the announcement. -/
theorem C95_hidden_failure : ∃ d, Legitimate toyAead exBusy exDatagram (.v4 0x0a000001) (exWorld [.ok, .err 3]) d ∧
    exBusy.handleLog toyAead exDatagram (.v4 0x0a000001) exReadings 2000000000 (exWorld [.ok, .err 3]) = [announcement exBusy exDatagram (.v4 0x0a000001) d] ∧
    (announcement exBusy exDatagram (.v4 0x0a000001) d).isInfo = true ∧
    forwards (exBusy.handleDatagram toyAead exDatagram (.v4 0x0a000001) exReadings 2000000000 (exWorld [.ok, .err 3])).2.log = [] := by
  have hlog : exBusy.handleLog toyAead exDatagram (.v4 0x0a000001) exReadings 2000000000 (exWorld [.ok, .err 3]) = [announcement exBusy exDatagram (.v4 0x0a000001) exRequest] := by decide +kernel
  obtain ⟨d, hd, he⟩ := C95_announcement_is_true toyAead exBusy exServer_wf exDatagram (.v4 0x0a000001) exReadings 2000000000 (exWorld [.ok, .err 3]) _ _ _ _ _ (by rw [hlog]; exact List.mem_singleton.2 rfl)
  refine ⟨d, hd, ?_, rfl, by decide +kernel⟩
  rw [hlog, ← he]
  rfl

/-- A request that is carried out, one for which the commander is not there, one whose counter can not be stored, and garbage. -/
example :
    exServer.handleLog toyAead exDatagram (.v4 0x0a000001) exReadings 10 (exWorld []) = [announcement exServer exDatagram (.v4 0x0a000001) exRequest, .sent] ∧
    exServer.handleLog toyAead exDatagram (.v4 0x0a000001) exReadings 10 (exWorld [.ok, .ok, .ok, .ok, .ok, .err 0]) =
      [announcement exServer exDatagram (.v4 0x0a000001) exRequest, .notSent] ∧
    exServer.handleLog toyAead exDatagram (.v4 0x0a000001) exReadings 10 (exWorld [.ok, .err 3]) = [announcement exServer exDatagram (.v4 0x0a000001) exRequest, .failure .save 0] ∧
    exServer.handleLog toyAead [1, 2, 3] (.v4 0x0a000001) exReadings 10 (exWorld []) = [.failure .badSize 0] ∧
    exBusy.handleLog toyAead [1, 2, 3] (.v4 0x0a000001) exReadings 2000000000 (exWorld []) = [] := by decide +kernel

/-! ## The text of the lines -/

theorem cut_at {c : Char} {a b x y : List Char} (ha : c ∉ a) (hb : c ∉ b) (h : a ++ c :: x = b ++ c :: y) : a = b ∧ x = y := by
  induction a generalizing b with
  | nil =>
    cases b with
    | nil => exact ⟨rfl, (List.cons.inj h).2⟩
    | cons d b =>
      have := (List.cons.inj h).1
      subst this
      exact absurd (List.mem_cons_self ..) hb
  | cons d a ih =>
    cases b with
    | nil =>
      have := (List.cons.inj h).1
      subst this
      exact absurd (List.mem_cons_self ..) ha
    | cons e b =>
      obtain ⟨rfl, h2⟩ := List.cons.inj h
      obtain ⟨rfl, rfl⟩ := ih (fun hm => ha (List.mem_cons_of_mem _ hm)) (fun hm => hb (List.mem_cons_of_mem _ hm)) h2
      exact ⟨rfl, rfl⟩

theorem showHexUpper_table : ∀ n : Fin 256, ofDigits 16 (showHexUpper (BitVec.ofNat 8 n.val)) = n.val ∧ (∀ c ∈ showHexUpper (BitVec.ofNat 8 n.val), c ∈ "0123456789ABCDEF".toList) := by
  decide +kernel

theorem showHexUpper_injective {a b : Byte} (h : showHexUpper a = showHexUpper b) : a = b := by
  have ha := (showHexUpper_table ⟨a.toNat, a.isLt⟩).1
  have hb := (showHexUpper_table ⟨b.toNat, b.isLt⟩).1
  simp only [BitVec.ofNat_toNat, BitVec.setWidth_eq] at ha hb
  exact BitVec.eq_of_toNat_eq (by rw [← ha, ← hb, h])

theorem showHexUpper_chars (a : Byte) : ∀ c ∈ showHexUpper a, c ∈ "0123456789ABCDEF".toList := by
  have ha := (showHexUpper_table ⟨a.toNat, a.isLt⟩).2
  simpa only [BitVec.ofNat_toNat, BitVec.setWidth_eq] using ha

theorem showHexUpper_notMem (a : Byte) {c : Char} (h : c ∉ "0123456789ABCDEF".toList) : c ∉ showHexUpper a := fun hm => h (showHexUpper_chars a c hm)

theorem showHexUpper_ne_nil (a : Byte) : showHexUpper a ≠ [] := by
  unfold showHexUpper
  intro h
  exact show_ne_nil 16 a.toNat (List.map_eq_nil_iff.1 h)

theorem showHexItems_cons (a b : Byte) (l : List Byte) : showHexItems (a :: b :: l) = showHexUpper a ++ ',' :: ' ' :: showHexItems (b :: l) := by
  rw [showHexItems.eq_3 _ _ (by simp)]
  simp

theorem showHexItems_injective (a b : List Byte) (h : showHexItems a = showHexItems b) : a = b := by
  have hc : ∀ x : Byte, ',' ∉ showHexUpper x := fun x => showHexUpper_notMem x (by decide)
  induction a generalizing b with
  | nil =>
    cases b with
    | nil => rfl
    | cons y t =>
      cases t with
      | nil => exact absurd h.symm (showHexUpper_ne_nil y)
      | cons z t =>
        rw [showHexItems_cons] at h
        exact absurd h (by simp [showHexItems])
  | cons x l ih =>
    cases l with
    | nil =>
      cases b with
      | nil => exact absurd h (showHexUpper_ne_nil x)
      | cons y t =>
        cases t with
        | nil => rw [showHexUpper_injective h]
        | cons z t =>
          rw [showHexItems_cons] at h
          have h : showHexUpper x = _ := h
          exact absurd (by rw [h]; simp) (hc x)
    | cons x2 l =>
      cases b with
      | nil =>
        rw [showHexItems_cons] at h
        exact absurd h.symm (by simp [showHexItems])
      | cons y t =>
        cases t with
        | nil =>
          rw [showHexItems_cons] at h
          have h : _ = showHexUpper y := h
          exact absurd (by rw [← h]; simp) (hc y)
        | cons z t =>
          rw [showHexItems_cons, showHexItems_cons] at h
          obtain ⟨h1, h2⟩ := cut_at (hc x) (hc y) h
          rw [showHexUpper_injective h1, ih (z :: t) (List.cons.inj h2).2]

theorem showHexItems_chars (l : List Byte) : ∀ c ∈ showHexItems l, c ∈ "0123456789ABCDEF, ".toList := by
  have hx : ∀ x : Byte, ∀ c ∈ showHexUpper x, c ∈ "0123456789ABCDEF, ".toList := by
    intro x c hc
    have hsub : ∀ c ∈ "0123456789ABCDEF".toList, c ∈ "0123456789ABCDEF, ".toList := by decide
    exact hsub c (showHexUpper_chars x c hc)
  induction l with
  | nil => intro c hc; cases hc
  | cons x l ih =>
    cases l with
    | nil => exact hx x
    | cons y l =>
      rw [showHexItems_cons]
      intro c hc
      rw [List.mem_append, List.mem_cons, List.mem_cons] at hc
      rcases hc with hc | rfl | rfl | hc
      · exact hx x c hc
      · decide
      · decide
      · exact ih c hc

theorem show10_notMem (n : Nat) {c : Char} (h : c ∉ "0123456789abcdef".toList) : c ∉ showRadix 10 n := fun hm => h (show_chars (by omega) (by omega) c hm)

theorem show10_injective {a b : Nat} (h : showRadix 10 a = showRadix 10 b) : a = b := by
  have ha := ofDigits_show (radix := 10) (n := a) (by omega) (by omega)
  have hb := ofDigits_show (radix := 10) (n := b) (by omega) (by omega)
  rw [← ha, ← hb, h]

theorem showOptNat_notMem (o : Option Nat) {c : Char} (h : c ∉ "0123456789abcdefNoneSome()".toList) : c ∉ showOptNat o := by
  intro hm
  cases o with
  | none => exact h (by simp [showOptNat] at hm ⊢; rcases hm with rfl | rfl | rfl | rfl <;> simp)
  | some n =>
    unfold showOptNat at hm
    rw [List.mem_append, List.mem_append] at hm
    rcases hm with (hm | hm) | hm
    · exact h (by simp at hm ⊢; rcases hm with rfl | rfl | rfl | rfl | rfl <;> simp)
    · exact show10_notMem n (fun hm => h (by simp at hm ⊢; simp_all)) hm
    · exact h (by simp at hm ⊢; simp [hm])

theorem showOptNat_injective {a b : Option Nat} (h : showOptNat a = showOptNat b) : a = b := by
  cases a with
  | none =>
    cases b with
    | none => rfl
    | some n => exact absurd h (by simp [showOptNat])
  | some m =>
    cases b with
    | none => exact absurd h (by simp [showOptNat])
    | some n =>
      have h : "Some(".toList ++ showRadix 10 m ++ ")".toList = "Some(".toList ++ showRadix 10 n ++ ")".toList := h
      rw [List.append_cancel_right_eq, List.append_cancel_left_eq] at h
      rw [show10_injective h]

/-- **C95h.** The text of an announcement tells key, request, counter, stored counter and address: two announcements with the same text are the same. -/
theorem C95_text_tells_all (errText : Err → List Char) (socket : List Char) (k k' : List Byte) (cmd cmd' : U64) (ctr ctr' : U128) (rec rec' : Option U128) (ip ip' : Ip)
    (h : (SrvEntry.valid k cmd ctr rec ip).text errText socket = (SrvEntry.valid k' cmd' ctr' rec' ip').text errText socket) :
    SrvEntry.valid k cmd ctr rec ip = .valid k' cmd' ctr' rec' ip' := by
  unfold SrvEntry.text showHexList at h
  simp only [List.append_assoc, List.append_cancel_left_eq, List.cons_append, List.cons.injEq, true_and] at h
  obtain ⟨h1, h⟩ := cut_at (fun hm => absurd (showHexItems_chars k _ hm) (by decide)) (fun hm => absurd (showHexItems_chars k' _ hm) (by decide)) h
  rw [List.nil_append, List.nil_append, List.append_cancel_left_eq] at h
  have e1 : " and counter ".toList = ' ' :: "and counter ".toList := by decide
  rw [e1, List.cons_append, List.cons_append] at h
  obtain ⟨h2, h⟩ := cut_at (show10_notMem _ (by decide)) (show10_notMem _ (by decide)) h
  rw [List.append_cancel_left_eq] at h
  have e2 : "|".toList = ['|'] := by decide
  rw [e2, List.singleton_append, List.singleton_append] at h
  obtain ⟨h3, h⟩ := cut_at (show10_notMem _ (by decide)) (show10_notMem _ (by decide)) h
  have e3 : " with ".toList = ' ' :: "with ".toList := by decide
  rw [e3, List.cons_append, List.cons_append] at h
  obtain ⟨h4, h⟩ := cut_at (showOptNat_notMem _ (by decide)) (showOptNat_notMem _ (by decide)) h
  rw [List.append_cancel_left_eq] at h
  have g1 := showHexItems_injective _ _ h1
  have g2 := BitVec.eq_of_toNat_eq (show10_injective h2)
  have g3 := BitVec.eq_of_toNat_eq (show10_injective h3)
  have g4 : rec = rec' := by
    have := showOptNat_injective h4
    cases rec <;> cases rec' <;> simp at this
    · rfl
    · rw [BitVec.eq_of_toNat_eq this]
  have g5 := C47_injective _ _ h
  rw [g1, g2, g3, g4, g5]

/-- **C95i.** An entry is one line (if the path of the socket and the texts of errors are): nothing a datagram contains can begin a line of the log. -/
theorem C95_one_line (errText : Err → List Char) (socket : List Char) (he : ∀ e, '\n' ∉ errText e) (hs : '\n' ∉ socket) (x : SrvEntry) : '\n' ∉ x.text errText socket := by
  have app : ∀ {a b : List Char}, '\n' ∉ a → '\n' ∉ b → '\n' ∉ a ++ b := fun ha hb hm => (List.mem_append.1 hm).elim ha hb
  have dec := fun n => show10_notMem n (c := '\n') (by decide)
  cases x with
  | sent =>
    show '\n' ∉ "Successfully sent data to commander".toList
    decide
  | notSent => exact app (app (app (by decide) hs) (by decide)) (he _)
  | failure e n =>
    show '\n' ∉ throttledText (errText e) n
    unfold throttledText
    split
    · exact app (app (app (he e) (by decide)) (dec n)) (by decide)
    · exact he e
  | valid k cmd ctr rec ip =>
    have h1 : '\n' ∉ showHexList k := by
      have : '\n' ∉ showHexItems k := fun hm => absurd (showHexItems_chars k _ hm) (by decide)
      show '\n' ∉ ['['] ++ showHexItems k ++ [']']
      exact app (app (by decide) this) (by decide)
    have h3 := showOptNat_notMem (rec.map BitVec.toNat) (c := '\n') (by decide)
    have h4 : '\n' ∉ showIp ip := fun hm => C47_no_shell_syntax ip _ hm (by decide)
    exact app (app (app (app (app (app (app (app (app (by decide) h1) (by decide)) (dec _)) (by decide)) (dec _)) (by decide)) h3) (by decide)) h4

example : (announcement exServer exDatagram (.v4 0x0a000001) exRequest).text (fun _ => []) [] =
    "Valid data for key [1, 2, 3, 4, 5, 6, 7, 8] - trying cmd 7 and counter 5000|Some(4000) with 10.0.0.1".toList := by decide +kernel

end Ruroco
