import Verif.Spec.Flood
import Verif.Props.ServerRate
import Verif.Props.KeyLife

/-!
# C89: a flood of datagrams made without a key
-/

namespace Ruroco

open Spec (forwards Acceptable OpensAny InTime InTime1 LongBefore WithinSecond Req Timed limit admitted message RateOk)

/-! ## One datagram -/

/-- A datagram the limiter refuses. -/
theorem handle_refused (A : Aead) (s : Server) (w : World) (dg : List Byte) (src : Ip) (rd : Readings) (tl : Nat) (hl : 94 ≤ dg.length) (e : Err)
    (he : (s.rl.check (normalizeIp src) s.cfg.maxPerIp s.cfg.maxGlobal rd).1 = .error e) :
    s.handleDatagram A dg src rd tl w =
      (.ok ({ s with rl := (s.rl.check (normalizeIp src) s.cfg.maxPerIp s.cfg.maxGlobal rd).2, throttle := (s.throttle.log tl).2 }, .error e), w) := by
  have h1 : ¬ (dg.take MSG_SIZE).length ≠ MSG_SIZE := by
    have : MSG_SIZE = 94 := rfl
    rw [List.length_take, this]
    omega
  unfold Server.handleDatagram Server.iteration
  simp only [if_neg h1]
  generalize hc : s.rl.check (normalizeIp src) s.cfg.maxPerIp s.cfg.maxGlobal rd = x at he
  obtain ⟨v, rl⟩ := x
  simp only at he
  subst he
  rfl

/-- A datagram that opens under no key: nothing but limiter and throttle changes. -/
theorem handle_junk (A : Aead) (s : Server) (w : World) (dg : List Byte) (src : Ip) (rd : Readings) (tl : Nat) (hj : ¬ OpensAny A s dg) :
    ∃ rl e, s.handleDatagram A dg src rd tl w = (.ok ({ s with rl, throttle := (s.throttle.log tl).2 }, .error e), w) := by
  by_cases hl : 94 ≤ dg.length
  · cases he : (s.rl.check (normalizeIp src) s.cfg.maxPerIp s.cfg.maxGlobal rd).1 with
    | error e => exact ⟨_, e, handle_refused A s w dg src rd tl hl e he⟩
    | ok u =>
      have h1 : ¬ (dg.take MSG_SIZE).length ≠ MSG_SIZE := by
        have : MSG_SIZE = 94 := rfl
        rw [List.length_take, this]
        omega
      have h2 : ∃ e, ∀ rl, Server.decryptMsg A { s with rl } (dg.take MSG_SIZE) = .error e := by
        have e8 : (dg.take 94).take 8 = dg.take 8 := by simp [List.take_take]
        unfold Server.decryptMsg decode
        simp only [show MSG_SIZE = 94 from rfl, show KEY_ID_SIZE = 8 from rfl, e8]
        cases hg : s.handlers.get (dg.take 8) with
        | none => exact ⟨_, fun _ => rfl⟩
        | some h =>
          have hd : A.dec h.key (slice dg 8 20) (slice dg 20 36) (slice dg 36 94) = none := by
            cases hd : A.dec h.key (slice dg 8 20) (slice dg 20 36) (slice dg 36 94) with
            | none => rfl
            | some pt => exact absurd ⟨h, pt, hg, hd⟩ hj
          have a1 : ((dg.take 94).drop 8).take 12 = slice dg 8 20 := by
            simp only [slice, List.drop_take, List.take_take]; rfl
          have a2 : slice ((dg.take 94).drop 8) 12 28 = slice dg 20 36 := by
            simp only [slice, List.drop_take, List.take_take, List.drop_drop]; rfl
          have a3 : ((dg.take 94).drop 8).drop 28 = slice dg 36 94 := by
            simp only [slice, List.drop_take, List.drop_drop]
          refine ⟨.decrypt, fun _ => ?_⟩
          simp only [CryptoHandler.decrypt, show IV_SIZE = 12 from rfl, show TAG_SIZE = 16 from rfl]
          rw [a1, a2, a3, hd]
      obtain ⟨e, h2⟩ := h2
      refine ⟨(s.rl.check (normalizeIp src) s.cfg.maxPerIp s.cfg.maxGlobal rd).2, e, ?_⟩
      unfold Server.handleDatagram Server.iteration
      simp only [if_neg h1]
      generalize hc : s.rl.check (normalizeIp src) s.cfg.maxPerIp s.cfg.maxGlobal rd = x at he
      obtain ⟨v, rl⟩ := x
      simp only at he
      subst he
      simp only [h2 rl]
      rfl
  · refine ⟨s.rl, .badSize, ?_⟩
    have h1 : (dg.take MSG_SIZE).length ≠ MSG_SIZE := by
      have : MSG_SIZE = 94 := rfl
      rw [List.length_take, this]
      omega
    unfold Server.handleDatagram Server.iteration
    simp only [if_pos h1]
    rfl

/-! ## Sequences of datagrams -/

/-- What stays true of a server as datagrams come in. -/
def Fit (s : Server) : Prop := s.bl.Wf ∧ s.bl.map.length < 2 ^ 32

theorem deliver_cons (A : Aead) {s : Server} (hf : Fit s) (w : World) (a : Arrival) :
    ∃ s' r w', s.handleDatagram A a.dg a.src a.rd a.tLog (w.withEnv ⟨[], [some a.now, some a.saveTime]⟩ (a.dg.take MSG_SIZE)) = (.ok (s', r), w') ∧ Fit s' ∧
      Accounted s ⟨a.dg, a.src, 0, a.rd, a.tLog, r⟩ s' ∧ s'.handlers = s.handlers ∧
      ∀ as, deliver A s w (a :: as) = ((deliver A s' w' as).1, (deliver A s' w' as).2.1, r :: (deliver A s' w' as).2.2) := by
  obtain ⟨s', r, w', e, b, n, c, k, q⟩ := arrival_cases A s hf.1 hf.2 w a
  exact ⟨s', r, w', e, ⟨b, n⟩, handleDatagram_accounted A s s' ⟨a.dg, a.src, 0, a.rd, a.tLog, r⟩ _ w' e, k, fun as => by simp only [deliver, e]⟩

theorem deliver_append (A : Aead) (as bs : List Arrival) {s : Server} (hf : Fit s) (w : World) :
    deliver A s w (as ++ bs) = ((deliver A (deliver A s w as).1 (deliver A s w as).2.1 bs).1, (deliver A (deliver A s w as).1 (deliver A s w as).2.1 bs).2.1,
      (deliver A s w as).2.2 ++ (deliver A (deliver A s w as).1 (deliver A s w as).2.1 bs).2.2) := by
  induction as generalizing s w with
  | nil => rfl
  | cons a as ih =>
    obtain ⟨s', r, w', _, hf', _, _, hd⟩ := deliver_cons A hf w a
    rw [List.cons_append, hd, hd, ih hf']
    rfl

theorem deliver_fit (A : Aead) (as : List Arrival) {s : Server} (hf : Fit s) (w : World) :
    Fit (deliver A s w as).1 ∧ (deliver A s w as).1.cfg = s.cfg ∧ (deliver A s w as).1.handlers = s.handlers := by
  induction as generalizing s w with
  | nil => exact ⟨hf, rfl, rfl⟩
  | cons a as ih =>
    obtain ⟨s', r, w', _, hf', ha, hk, hd⟩ := deliver_cons A hf w a
    rw [hd]
    obtain ⟨h1, h2, h3⟩ := ih hf' w'
    exact ⟨h1, h2.trans ha.cfg, h3.trans hk⟩

/-- The requests the limiter sees. -/
def limited (t : Nat) : List Arrival → List Req
  | [] => []
  | a :: as => if 94 ≤ a.dg.length then ⟨normalizeIp a.src, t, a.rd⟩ :: limited a.rd.globalReset as else limited a.rd.globalReset as

theorem timed_le {t t' : Nat} (h : t ≤ t') {l : List Req} (ht : Timed t' l) : Timed t l := by
  cases l with
  | nil => trivial
  | cons r rs => exact ⟨⟨Nat.le_trans h ht.1.1, ht.1.2⟩, ht.2⟩

theorem inTime1_later {t : Nat} {rd : Readings} (h : InTime1 t rd) : t ≤ rd.globalReset := by
  have h1 := h.1 (.v4 0)
  have h2 := h.2
  omega

theorem limited_timed {t : Nat} {as : List Arrival} (h : InTime t as) : Timed t (limited t as) := by
  induction as generalizing t with
  | nil => trivial
  | cons a as ih =>
    have := (inTime1_later h.1)
    have ih := ih h.2
    unfold limited
    split
    · exact ⟨⟨Nat.le_refl _, h.1⟩, ih⟩
    · exact timed_le this ih

theorem deliver_rl (A : Aead) (as : List Arrival) {s : Server} (hf : Fit s) (w : World) (t : Nat) :
    (deliver A s w as).1.rl = (limit s.cfg.maxPerIp s.cfg.maxGlobal s.rl (limited t as)).2 := by
  induction as generalizing s w t with
  | nil => rfl
  | cons a as ih =>
    obtain ⟨s', r, w', _, hf', ha, hk, hd⟩ := deliver_cons A hf w a
    rw [hd]
    have ih := ih hf' w' a.rd.globalReset
    simp only at ih ⊢
    rw [ih, ha.cfg]
    rw [limited.eq_2]
    by_cases hl : 94 ≤ a.dg.length
    · rw [if_pos hl, (ha.checked hl).1]
      rfl
    · rw [if_neg hl, (ha.short hl).1]

/-- Every request the limiter sees belongs to one of the datagrams. -/
theorem limited_mem {t : Nat} {as : List Arrival} {r : Req} (h : r ∈ limited t as) : ∃ a ∈ as, 94 ≤ a.dg.length ∧ r.ip = normalizeIp a.src ∧ r.rd = a.rd := by
  induction as generalizing t with
  | nil => cases h
  | cons a as ih =>
    unfold limited at h
    split at h
    · rename_i hl
      rcases List.mem_cons.1 h with rfl | h
      · exact ⟨a, List.mem_cons_self, hl, rfl, rfl⟩
      · obtain ⟨b, hb, h⟩ := ih h
        exact ⟨b, List.mem_cons_of_mem _ hb, h⟩
    · obtain ⟨b, hb, h⟩ := ih h
      exact ⟨b, List.mem_cons_of_mem _ hb, h⟩

theorem InTime.append {t : Nat} {as bs : List Arrival} (h : InTime t (as ++ bs)) : InTime t as ∧ ∃ t', t ≤ t' ∧ InTime t' bs ∧ (∀ a ∈ as, a.rd.globalReset ≤ t') := by
  induction as generalizing t with
  | nil => exact ⟨trivial, t, Nat.le_refl _, h, nofun⟩
  | cons a as ih =>
    obtain ⟨h1, t', h2, h3, h4⟩ := ih h.2
    refine ⟨⟨h.1, h1⟩, t', Nat.le_trans (inTime1_later h.1) h2, h3, ?_⟩
    intro b hb
    rcases List.mem_cons.1 hb with rfl | hb
    · exact h2
    · exact h4 b hb

theorem limited_append (t : Nat) (as bs : List Arrival) : ∃ t', limited t (as ++ bs) = limited t as ++ limited t' bs := by
  induction as generalizing t with
  | nil => exact ⟨t, rfl⟩
  | cons a as ih =>
    obtain ⟨t', h⟩ := ih a.rd.globalReset
    refine ⟨t', ?_⟩
    rw [List.cons_append, limited, limited, h]
    split <;> rfl

theorem inTime_mem {t : Nat} {as : List Arrival} (h : InTime t as) {a : Arrival} (ha : a ∈ as) :
    t ≤ a.rd.globalReset ∧ (∀ ip, t ≤ a.rd.sweep ip ∧ a.rd.sweep ip ≤ a.rd.insert) ∧ a.rd.insert ≤ a.rd.ipReset ∧ a.rd.ipReset ≤ a.rd.globalReset := by
  induction as generalizing t with
  | nil => cases ha
  | cons b as ih =>
    have hl := inTime1_later h.1
    rcases List.mem_cons.1 ha with rfl | ha
    · have := h.1.2
      exact ⟨hl, h.1.1, by omega, by omega⟩
    · obtain ⟨h1, h2, h3⟩ := ih h.2 ha
      exact ⟨by omega, fun ip => ⟨by have := (h2 ip).1; omega, (h2 ip).2⟩, h3⟩

theorem limit_fst {m g : Nat} {rl : RateLimiter} {reqs : List Req} {x : Req × Except Err Unit} (h : x ∈ (limit m g rl reqs).1) : x.1 ∈ reqs := by
  induction reqs generalizing rl with
  | nil => cases h
  | cons r rs ih =>
    simp only [limit, List.mem_cons] at h ⊢
    rcases h with rfl | h
    · exact Or.inl rfl
    · exact Or.inr (ih h)

/-- The global window was opened no later than the last request, or by the start. -/
theorem global_start_le {m g T : Nat} (reqs : List Req) {rl : RateLimiter} (h0 : rl.global.start ≤ T) (h : ∀ x ∈ reqs, x.rd.globalReset ≤ T) :
    (limit m g rl reqs).2.global.start ≤ T := by
  induction reqs generalizing rl with
  | nil => exact h0
  | cons r rs ih =>
    refine ih ?_ (fun x hx => h x (List.mem_cons_of_mem _ hx))
    cases hv : ((rl.ownSlot r.ip r.rd).bump m r.rd.ipElapsed r.rd.ipReset).1 with
    | false => rw [(check_own hv).2]; exact h0
    | true =>
      rw [(check_global hv).2]
      exact bump_start h0 (h r List.mem_cons_self)

/-! ## C89 -/

/-- **C89a.** Whatever number of datagrams that open under none of the server's keys arrives, of any size, from any sources and at any times: nothing is forwarded, no file is touched and
nothing else is done, and keys, settings and replay state stay as they are. Only the limiter and the throttle of the log notice. -/
theorem C89_flood_leaves_no_trace (A : Aead) (js : List Arrival) (s : Server) (w : World) (hj : ∀ j ∈ js, ¬ OpensAny A s j.dg) :
    (deliver A s w js).1.bl = s.bl ∧ (deliver A s w js).1.handlers = s.handlers ∧ (deliver A s w js).1.cfg = s.cfg ∧
      (deliver A s w js).2.1.fs = w.fs ∧ (deliver A s w js).2.1.log = w.log ∧ (deliver A s w js).2.2.length = js.length ∧ ∀ r ∈ (deliver A s w js).2.2, r ≠ .ok () := by
  induction js generalizing s w with
  | nil => exact ⟨rfl, rfl, rfl, rfl, rfl, rfl, nofun⟩
  | cons j js ih =>
    obtain ⟨rl, e, h⟩ := handle_junk A s (w.withEnv ⟨[], [some j.now, some j.saveTime]⟩ (j.dg.take MSG_SIZE)) j.dg j.src j.rd j.tLog (hj j List.mem_cons_self)
    simp only [deliver, h]
    obtain ⟨h1, h2, h3, h4, h5, h6, h7⟩ := ih { s with rl, throttle := (s.throttle.log j.tLog).2 } (w.withEnv ⟨[], [some j.now, some j.saveTime]⟩ (j.dg.take MSG_SIZE))
      (fun x hx => hj x (List.mem_cons_of_mem _ hx))
    refine ⟨h1, h2, h3, h4, h5, by simp [h6], ?_⟩
    intro r hr
    rcases List.mem_cons.1 hr with rfl | hr
    · exact nofun
    · exact h7 r hr

/-- A second after the last datagram of any traffic, the limiter lets the next one pass. -/
theorem quiet_admitted (A : Aead) (as : List Arrival) (r : Arrival) (s : Server) (hf : Fit s) (w : World) (t0 : Nat) (hrl : s.rl = RateLimiter.new t0) (hm : 1 ≤ s.cfg.maxPerIp)
    (hg : 1 ≤ s.cfg.maxGlobal) (hin : InTime t0 (as ++ [r])) (hq : ∀ a ∈ as, ∀ ip, LongBefore (r.rd.sweep ip) a) (hl : 94 ≤ r.dg.length) :
    ((deliver A s w as).1.rl.check (normalizeIp r.src) s.cfg.maxPerIp s.cfg.maxGlobal r.rd).1 = .ok () := by
  obtain ⟨t', ha⟩ := limited_append t0 as [r]
  have ht := limited_timed hin
  have hr1 : limited t' [r] = [⟨normalizeIp r.src, t', r.rd⟩] := by unfold limited; rw [if_pos hl]; rfl
  rw [ha, hr1] at ht
  rw [deliver_rl A as hf w t0, hrl]
  have hord : ∀ ip, r.rd.sweep ip ≤ r.rd.ipElapsed ∧ r.rd.ipElapsed ≤ r.rd.globalElapsed := by
    intro ip
    obtain ⟨_, u, _, h3⟩ := timed_append (m := 0) (g := 0) ht (Sane.new t0)
    have h4 := h3.1.2.1 ip
    have h5 := h3.1.2.2
    simp only at h4 h5
    omega
  rcases C21_no_other_refusal (limit s.cfg.maxPerIp s.cfg.maxGlobal (RateLimiter.new t0) (limited t0 as)).2 s.cfg.maxPerIp s.cfg.maxGlobal (normalizeIp r.src) r.rd with h | h | h
  · exact h
  · have := C21_refused_only_if_own_limit_used _ _ t0 _ ⟨normalizeIp r.src, t', r.rd⟩ ht h
    rw [List.countP_eq_zero.2] at this
    · omega
    · intro x hx
      obtain ⟨a, ha, _, _, h3⟩ := limited_mem hx
      have h1 := hq a ha (.v4 0)
      have h2 := hord (.v4 0)
      have h5 := (inTime_mem (InTime.append hin).1 ha).2.2.2
      unfold LongBefore at h1
      simp only [decide_eq_true_eq, h3]
      omega
  · have := C21_refused_only_if_global_limit_used _ _ t0 _ ⟨normalizeIp r.src, t', r.rd⟩ ht h
    rw [List.countP_eq_zero.2] at this
    · omega
    · intro x hx
      have hx : x.1 ∈ limited t0 as := limit_fst hx
      obtain ⟨a, ha, _, _, h3⟩ := limited_mem hx
      have h1 := hq a ha (.v4 0)
      have h2 := hord (.v4 0)
      unfold LongBefore at h1
      simp only [Bool.and_eq_true, decide_eq_true_eq, h3]
      omega

/-- One more datagram. -/
theorem deliver_one (A : Aead) {s : Server} (hf : Fit s) (w : World) (r : Arrival) :
    ((s.rl.check (normalizeIp r.src) s.cfg.maxPerIp s.cfg.maxGlobal r.rd).1 = .ok () → ∀ d, Acceptable A s r.now.toNat r.src r.dg d →
        forwards (deliver A s w [r]).2.1.log = forwards w.log ++ [(r.dg.take 94, d.counter, message d (normalizeIp r.src))]) ∧
      ((∀ d, ¬ Acceptable A s r.now.toNat r.src r.dg d) → forwards (deliver A s w [r]).2.1.log = forwards w.log) := by
  obtain ⟨s', res, w', he, _, _, _, hd⟩ := deliver_cons A hf w r
  rw [hd]
  simp only [deliver]
  generalize hw0 : w.withEnv ⟨[], [some r.now, some r.saveTime]⟩ (r.dg.take MSG_SIZE) = w0 at he
  have hlog : forwards w.log = forwards w0.log := by subst hw0; rfl
  have hcur : w0.cur = r.dg.take 94 := by subst hw0; rfl
  have hclk : w0.clock = [some r.now, some r.saveTime] := by subst hw0; rfl
  have hall : AllOk w0 := by subst hw0; intro c hc; cases hc
  rcases hi : s.iteration A r.dg r.src r.rd w0 with ⟨o, w1⟩
  have hw1 : w' = w1 := by
    unfold Server.handleDatagram at he
    simp only [bind, Act.bind, hi] at he
    cases o with
    | err e => cases he
    | crash => cases he
    | ok x =>
      obtain ⟨s1, r1⟩ := x
      cases r1 <;> cases he <;> rfl
  subst hw1
  have hc15 := C15_forwards_iff_acceptable A s hf.1 hf.2 r.dg r.src r.rd w0 w' _ hall r.now r.saveTime [] hclk hi
  refine ⟨fun hp d ha => ?_, fun hn => ?_⟩
  · rw [hlog, ← hcur]
    exact (hc15.2 _ d (Prod.ext hp rfl) ha).2
  · rw [hlog]
    refine Classical.byContradiction fun hne => ?_
    obtain ⟨_, d, ha⟩ := hc15.1.1 hne
    exact hn d ha

/-- **C89b.** After any traffic `as` and any flood `js` of datagrams that open under none of the keys, a request that arrives a second after the last datagram is treated as it would have been
before the flood: if it is acceptable to the server as it was then, exactly its command is forwarded, else nothing. -/
theorem C89_over_after_a_second (A : Aead) (as js : List Arrival) (r : Arrival) (s : Server) (w : World) (t0 : Nat) (hb : s.bl.Wf) (hlen : s.bl.map.length < 2 ^ 32)
    (hrl : s.rl = RateLimiter.new t0) (hm : 1 ≤ s.cfg.maxPerIp) (hg : 1 ≤ s.cfg.maxGlobal) (ht : InTime t0 (as ++ js ++ [r])) (hj : ∀ j ∈ js, ¬ OpensAny A s j.dg)
    (hq : ∀ a ∈ as ++ js, ∀ ip, LongBefore (r.rd.sweep ip) a) :
    (∀ d, Acceptable A (deliver A s w as).1 r.now.toNat r.src r.dg d →
        forwards (deliver A s w (as ++ js ++ [r])).2.1.log = forwards (deliver A s w as).2.1.log ++ [(r.dg.take 94, d.counter, message d (normalizeIp r.src))]) ∧
      ((∀ d, ¬ Acceptable A (deliver A s w as).1 r.now.toNat r.src r.dg d) → forwards (deliver A s w (as ++ js ++ [r])).2.1.log = forwards (deliver A s w as).2.1.log) := by
  have hf : Fit s := ⟨hb, hlen⟩
  obtain ⟨hf1, hc1, hk1⟩ := deliver_fit A as hf w
  obtain ⟨hf2, hc2, hk2⟩ := deliver_fit A (as ++ js) hf w
  have hap := deliver_append A as js hf w
  have hap2 := deliver_append A (as ++ js) [r] hf w
  have htr := C89_flood_leaves_no_trace A js (deliver A s w as).1 (deliver A s w as).2.1 (by
    intro j hm hauth
    refine hj j hm ?_
    unfold OpensAny at hauth ⊢
    rw [hk1] at hauth
    exact hauth)
  have hbl : (deliver A s w (as ++ js)).1.bl = (deliver A s w as).1.bl := by rw [hap]; exact htr.1
  have hlog : (deliver A s w (as ++ js)).2.1.log = (deliver A s w as).2.1.log := by rw [hap]; exact htr.2.2.2.2.1
  have hloc : ∀ d, Acceptable A (deliver A s w as).1 r.now.toNat r.src r.dg d ↔ Acceptable A (deliver A s w (as ++ js)).1 r.now.toNat r.src r.dg d := fun d =>
    ⟨acceptable_local (by rw [hc1, hc2]) (by rw [hk1, hk2]) (by rw [hbl]), acceptable_local (by rw [hc1, hc2]) (by rw [hk1, hk2]) (by rw [hbl])⟩
  have hone := deliver_one A hf2 (deliver A s w (as ++ js)).2.1 r
  rw [hap2, ← hlog]
  refine ⟨fun d hd => ?_, fun hn => hone.2 fun d hd => hn d ((hloc d).2 hd)⟩
  have hadm := quiet_admitted A (as ++ js) r s hf w t0 hrl hm hg ht hq hd.size
  rw [← hc2] at hadm
  exact hone.1 hadm d ((hloc d).1 hd)

/-! ### What the flood can do while it lasts -/

/-- The window of source `ip` has had at least `k` requests (or the full number `m`) since `t`. -/
def Spent (ip : Ip) (t m k : Nat) (rl : RateLimiter) : Prop :=
  (rl.perIp.map Prod.fst).Nodup ∧
    match lookupIp rl.perIp ip with
    | none => k = 0
    | some s => (k = 0 ∧ s.start + SECOND ≤ t) ∨ (t ≤ s.start ∧ min k m ≤ s.count)

theorem Spent.own {ip : Ip} {t m k : Nat} {rl : RateLimiter} (h : Spent ip t m k rl) {rd : Readings} (hr : InTime1 t rd) (he : rd.ipElapsed < t + SECOND) :
    t ≤ (rl.ownSlot ip rd).start ∧ min k m ≤ (rl.ownSlot ip rd).count := by
  obtain ⟨hn, h⟩ := h
  have h1 := hr.1 ip
  have h2 := second_pos
  have h3 := hr.2
  unfold RateLimiter.ownSlot
  rw [lookup_drop hn]
  cases hl : lookupIp rl.perIp ip with
  | none =>
    rw [hl] at h
    simp only at h
    subst h
    simp only [Option.filter, Option.getD]
    omega
  | some s =>
    rw [hl] at h
    simp only at h
    rcases h with ⟨rfl, h⟩ | ⟨h, h'⟩
    · simp only [Option.filter, show ¬ (rd.sweep ip - s.start < SECOND) by omega, decide_false]
      simp only [Option.getD]
      refine ⟨by simp; omega, by simp⟩
    · simp only [Option.filter, show (rd.sweep ip - s.start < SECOND) by omega, decide_true]
      exact ⟨h, h'⟩

theorem Spent.refused {ip : Ip} {t m g : Nat} {rl : RateLimiter} (h : Spent ip t m m rl) {rd : Readings} (hr : InTime1 t rd) (he : rd.ipElapsed < t + SECOND) :
    (rl.check ip m g rd).1 = .error .rateIp := by
  obtain ⟨h1, h2⟩ := h.own hr he
  have hs := second_pos
  refine (check_own ?_).1
  rcases bump_cases (rl.ownSlot ip rd) m rd.ipElapsed rd.ipReset with ⟨h3, hb⟩ | ⟨_, _, hb⟩ | ⟨_, h4, hb⟩
  · omega
  · rw [hb]
  · omega

theorem Spent.step {ip : Ip} {t m g k : Nat} {rl : RateLimiter} (h : Spent ip t m k rl) {rd : Readings} (hr : InTime1 t rd) (he : rd.ipElapsed < t + SECOND) :
    Spent ip t m (k + 1) (rl.check ip m g rd).2 := by
  obtain ⟨h1, h2⟩ := h.own hr he
  have hs := second_pos
  refine ⟨?_, ?_⟩
  · rw [check_perIp]
    exact nodup_set (nodup_drop h.1 _) _ _
  · rw [check_perIp, lookup_set, if_pos rfl]
    simp only
    refine Or.inr ?_
    rcases bump_cases (rl.ownSlot ip rd) m rd.ipElapsed rd.ipReset with ⟨h3, hb⟩ | ⟨_, _, hb⟩ | ⟨_, h4, hb⟩
    · omega
    · rw [hb]; exact ⟨h1, by simp only; omega⟩
    · rw [hb]; exact ⟨h1, by simp only; omega⟩

theorem inTime1_from {t u : Nat} {rd : Readings} (h : InTime1 u rd) (hs : ∀ ip, t ≤ rd.sweep ip) : InTime1 t rd := ⟨fun ip => ⟨hs ip, (h.1 ip).2⟩, h.2⟩

theorem inTime1_mem {t : Nat} {as : List Arrival} (h : InTime t as) {a : Arrival} (ha : a ∈ as) : ∃ u, InTime1 u a.rd := by
  induction as generalizing t with
  | nil => cases ha
  | cons b as ih =>
    rcases List.mem_cons.1 ha with rfl | ha
    · exact ⟨_, h.1⟩
    · exact ih h.2 ha

/-- Datagrams of one source, one after the other. -/
theorem spent_deliver (A : Aead) (ip : Ip) (t : Nat) (js : List Arrival) {s : Server} (hf : Fit s) (w : World) (k : Nat) (h : Spent ip t s.cfg.maxPerIp k s.rl)
    (hl : ∀ j ∈ js, 94 ≤ j.dg.length) (hsrc : ∀ j ∈ js, normalizeIp j.src = ip) (ht : ∀ j ∈ js, InTime1 t j.rd ∧ j.rd.ipElapsed < t + SECOND) :
    Spent ip t s.cfg.maxPerIp (k + js.length) (deliver A s w js).1.rl := by
  induction js generalizing s w k with
  | nil => exact h
  | cons j js ih =>
    obtain ⟨s', r, w', _, hf', ha, hk, hd⟩ := deliver_cons A hf w j
    rw [hd]
    have h1 := h.step (g := s.cfg.maxGlobal) (ht j List.mem_cons_self).1 (ht j List.mem_cons_self).2
    have h2 := (ha.checked (hl j List.mem_cons_self)).1
    simp only [hsrc j List.mem_cons_self] at h2
    rw [← h2] at h1
    rw [← ha.cfg] at h1 ⊢
    have := ih hf' w' (k + 1) h1 (fun x hx => hl x (List.mem_cons_of_mem _ hx)) (fun x hx => hsrc x (List.mem_cons_of_mem _ hx)) (fun x hx => ht x (List.mem_cons_of_mem _ hx))
    simpa [Nat.add_assoc, Nat.add_comm 1] using this

/-- The last of the datagrams is refused by the limiter: the result says so, and the world is as before. -/
theorem refused_last (A : Aead) (as : List Arrival) (r : Arrival) {s : Server} (hf : Fit s) (w : World) (hl : 94 ≤ r.dg.length) (e : Err)
    (he : ((deliver A s w as).1.rl.check (normalizeIp r.src) s.cfg.maxPerIp s.cfg.maxGlobal r.rd).1 = .error e) :
    (deliver A s w (as ++ [r])).2.2 = (deliver A s w as).2.2 ++ [.error e] ∧ (deliver A s w (as ++ [r])).1.bl = (deliver A s w as).1.bl ∧
      (deliver A s w (as ++ [r])).2.1.log = (deliver A s w as).2.1.log := by
  rw [deliver_append A as [r] hf w]
  rw [← (deliver_fit A as hf w).2.1] at he
  have := handle_refused A (deliver A s w as).1 ((deliver A s w as).2.1.withEnv ⟨[], [some r.now, some r.saveTime]⟩ (r.dg.take MSG_SIZE)) r.dg r.src r.rd r.tLog hl e he
  simp only [deliver, this]
  refine ⟨?_, ?_, ?_⟩ <;> first | rfl | trivial

/-- **C89c**, the price (named in SECURITY.md). While it lasts a flood can keep clients out. Whatever the server has been sent before: as many datagrams with the (forged) source address of a
client as the limit per source allows, with any content, lock that client out for the rest of the second: its request `r` is refused and nothing is forwarded, however valid it is. -/
theorem C89_forged_source_locks_out (A : Aead) (as js : List Arrival) (r : Arrival) (s : Server) (w : World) (t0 t : Nat) (hb : s.bl.Wf) (hlen : s.bl.map.length < 2 ^ 32)
    (hrl : s.rl = RateLimiter.new t0) (ht : InTime t0 (as ++ js ++ [r])) (hbefore : ∀ a ∈ as, LongBefore t a) (hdur : ∀ j ∈ js ++ [r], WithinSecond t j ∧ 94 ≤ j.dg.length)
    (hsrc : ∀ j ∈ js, normalizeIp j.src = normalizeIp r.src) (hn : s.cfg.maxPerIp ≤ js.length) :
    (deliver A s w (as ++ js ++ [r])).2.2 = (deliver A s w (as ++ js)).2.2 ++ [.error .rateIp] ∧
      forwards (deliver A s w (as ++ js ++ [r])).2.1.log = forwards (deliver A s w (as ++ js)).2.1.log := by
  have hf : Fit s := ⟨hb, hlen⟩
  obtain ⟨hf1, hc1, hk1⟩ := deliver_fit A as hf w
  have hin1 := (InTime.append (InTime.append ht).1).1
  have hord : ∀ j ∈ js ++ [r], InTime1 t j.rd ∧ j.rd.ipElapsed < t + SECOND := by
    intro j hj
    obtain ⟨u, hu⟩ := inTime1_mem ht (a := j) (by rw [List.append_assoc]; exact List.mem_append_right _ hj)
    have h1 := (hdur j hj).1
    refine ⟨inTime1_from hu h1.1, ?_⟩
    have h2 := hu.2
    have h3 := h1.2
    show _ < _ + 1000000000
    omega
  have hsp : Spent (normalizeIp r.src) t s.cfg.maxPerIp 0 (deliver A s w as).1.rl := by
    rw [deliver_rl A as hf w t0, hrl]
    obtain ⟨_, u, hsane, _⟩ := timed_append (m := s.cfg.maxPerIp) (g := s.cfg.maxGlobal) (b := []) (by rw [List.append_nil]; exact limited_timed hin1) (Sane.new t0)
    have hop := limit_opened (m := s.cfg.maxPerIp) (g := s.cfg.maxGlobal) (limited t0 as) [] (Sane.new t0) (by intro ip s h; cases h) (limited_timed hin1)
    refine ⟨hsane.nodup, ?_⟩
    cases hlk : lookupIp (limit s.cfg.maxPerIp s.cfg.maxGlobal (RateLimiter.new t0) (limited t0 as)).2.perIp (normalizeIp r.src) with
    | none => rfl
    | some sl =>
      obtain ⟨x, hx, _, h2⟩ := hop _ _ hlk
      obtain ⟨a, ha, _, _, h3⟩ := limited_mem hx
      have h4 := hbefore a ha
      have h5 := (inTime_mem hin1 ha).2.2.2
      unfold LongBefore at h4
      rw [h3] at h2
      refine Or.inl ⟨rfl, ?_⟩
      show _ + 1000000000 ≤ _
      omega
  rw [← hc1] at hsp
  have hsp := spent_deliver A _ t js hf1 (deliver A s w as).2.1 0 hsp (fun j hj => (hdur j (List.mem_append_left _ hj)).2) hsrc
    (fun j hj => hord j (List.mem_append_left _ hj))
  have hap := deliver_append A as js hf w
  have hr := List.mem_append_right js (List.mem_singleton.2 (rfl : r = r))
  have hspm : Spent (normalizeIp r.src) t s.cfg.maxPerIp s.cfg.maxPerIp (deliver A s w (as ++ js)).1.rl := by
    rw [hap]
    rw [hc1] at hsp
    obtain ⟨h1, h2⟩ := hsp
    refine ⟨h1, ?_⟩
    simp only at h2 ⊢
    revert h2
    split
    · intro h; omega
    · rintro (h | h)
      · exact Or.inl ⟨by omega, h.2⟩
      · exact Or.inr ⟨h.1, by have := h.2; omega⟩
  obtain ⟨h1, _, h3⟩ := refused_last A (as ++ js) r hf w (hdur r hr).2 .rateIp (hspm.refused (hord r hr).1 (hord r hr).2)
  exact ⟨h1, by rw [h3]⟩

/-- The global window has had at least `k` requests (or the full number `g`) since `t`, from sources in `seen`. -/
structure Sprayed (t g k : Nat) (seen : List Ip) (rl : RateLimiter) : Prop where
  nodup : (rl.perIp.map Prod.fst).Nodup
  fresh : ∀ ip s, ip ∉ seen → lookupIp rl.perIp ip = some s → s.start + SECOND ≤ t
  spent : (k = 0 ∧ rl.global.start + SECOND ≤ t) ∨ (t ≤ rl.global.start ∧ min k g ≤ rl.global.count)

theorem Sprayed.step {t m g k : Nat} {seen : List Ip} {rl : RateLimiter} (h : Sprayed t g k seen rl) (hm : 1 ≤ m) {ip : Ip} (hip : ip ∉ seen) {rd : Readings} (hr : InTime1 t rd)
    (he : rd.globalReset < t + SECOND) : Sprayed t g (k + 1) (ip :: seen) (rl.check ip m g rd).2 := by
  have hs := second_pos
  have hr2 := hr.2
  have hown : rl.ownSlot ip rd = ⟨rd.insert, 0⟩ := by
    unfold RateLimiter.ownSlot
    rw [lookup_drop h.nodup]
    cases hl : lookupIp rl.perIp ip with
    | none => rfl
    | some s =>
      have h1 := h.fresh ip s hip hl
      have h2 := (hr.1 ip).1
      simp only [Option.filter, show ¬ (rd.sweep ip - s.start < SECOND) by omega, decide_false]
      rfl
  have hi := (hr.1 ip)
  have hbump : ((rl.ownSlot ip rd).bump m rd.ipElapsed rd.ipReset).1 = true := by
    rw [hown]
    rcases bump_cases ⟨rd.insert, 0⟩ m rd.ipElapsed rd.ipReset with ⟨_, hb⟩ | ⟨_, h4, hb⟩ | ⟨_, _, hb⟩
    · rw [hb]
    · simp only at h4; omega
    · rw [hb]
  refine ⟨?_, ?_, ?_⟩
  · rw [check_perIp]
    exact nodup_set (nodup_drop h.nodup _) _ _
  · intro i s hn hl
    simp only [List.mem_cons, not_or] at hn
    rw [check_perIp, lookup_set, if_neg hn.1, lookup_drop h.nodup, Option.filter_eq_some_iff] at hl
    exact h.fresh i s hn.2 hl.1
  · rw [(check_global hbump).2]
    refine Or.inr ?_
    rcases bump_cases rl.global g rd.globalElapsed rd.globalReset with ⟨h3, hb⟩ | ⟨h3, h4, hb⟩ | ⟨h3, h4, hb⟩
    · rw [hb]
      rcases h.spent with ⟨rfl, h5⟩ | ⟨h5, _⟩
      · exact ⟨by simp only; omega, by simp only; omega⟩
      · omega
    · rw [hb]
      rcases h.spent with ⟨rfl, h5⟩ | ⟨h5, _⟩
      · omega
      · exact ⟨h5, by simp only; omega⟩
    · rw [hb]
      rcases h.spent with ⟨rfl, h5⟩ | ⟨h5, _⟩
      · omega
      · exact ⟨h5, by simp only; omega⟩

theorem Sprayed.refused {t m g k : Nat} {seen : List Ip} {rl : RateLimiter} (h : Sprayed t g k seen rl) (hg : 1 ≤ g) (hk : g ≤ k) (ip : Ip) {rd : Readings} (hr : InTime1 t rd)
    (he : rd.globalReset < t + SECOND) : (rl.check ip m g rd).1 = .error .rateIp ∨ (rl.check ip m g rd).1 = .error .rateGlobal := by
  have hs := second_pos
  have hr2 := hr.2
  cases hv : ((rl.ownSlot ip rd).bump m rd.ipElapsed rd.ipReset).1 with
  | false => exact Or.inl (check_own hv).1
  | true =>
    refine Or.inr ?_
    rw [(check_global hv).1]
    rcases h.spent with ⟨rfl, _⟩ | ⟨h5, h6⟩
    · omega
    · rcases bump_cases rl.global g rd.globalElapsed rd.globalReset with ⟨h3, hb⟩ | ⟨h3, h4, hb⟩ | ⟨h3, h4, hb⟩
      · omega
      · rw [hb]; rfl
      · omega

/-- Datagrams of distinct sources, one after the other. -/
theorem sprayed_deliver (A : Aead) (t : Nat) (js : List Arrival) {s : Server} (hf : Fit s) (w : World) (k : Nat) (seen : List Ip) (hm : 1 ≤ s.cfg.maxPerIp)
    (h : Sprayed t s.cfg.maxGlobal k seen s.rl) (hl : ∀ j ∈ js, 94 ≤ j.dg.length) (hsrc : (js.map (fun j => normalizeIp j.src) ++ seen).Nodup)
    (ht : ∀ j ∈ js, InTime1 t j.rd ∧ j.rd.globalReset < t + SECOND) : ∃ seen', Sprayed t s.cfg.maxGlobal (k + js.length) seen' (deliver A s w js).1.rl := by
  induction js generalizing s w k seen with
  | nil => exact ⟨seen, h⟩
  | cons j js ih =>
    obtain ⟨s', r, w', _, hf', ha, hk, hd⟩ := deliver_cons A hf w j
    rw [hd]
    rw [List.map_cons, List.cons_append, List.nodup_cons, List.mem_append, not_or] at hsrc
    have h1 := h.step hm hsrc.1.2 (ht j List.mem_cons_self).1 (ht j List.mem_cons_self).2
    have h2 := (ha.checked (hl j List.mem_cons_self)).1
    simp only at h2
    rw [← h2] at h1
    rw [← ha.cfg] at h1 hm ⊢
    have := ih hf' w' (k + 1) _ hm h1 (fun x hx => hl x (List.mem_cons_of_mem _ hx)) (by
      rw [List.nodup_append] at hsrc ⊢
      refine ⟨hsrc.2.1, List.nodup_cons.2 ⟨hsrc.1.2, hsrc.2.2.1⟩, ?_⟩
      intro a ha b hb
      rcases List.mem_cons.1 hb with rfl | hb
      · rintro rfl
        exact hsrc.1.1 ha
      · exact hsrc.2.2.2 a ha b hb) (fun x hx => ht x (List.mem_cons_of_mem _ hx))
    simpa [Nat.add_assoc, Nat.add_comm 1] using this

/-- **C89d**, likewise. As many datagrams with distinct (forged) source addresses as the global limit allows, with any content, lock everybody out for the rest of the second. -/
theorem C89_spray_locks_everybody_out (A : Aead) (as js : List Arrival) (r : Arrival) (s : Server) (w : World) (t0 t : Nat) (hb : s.bl.Wf) (hlen : s.bl.map.length < 2 ^ 32)
    (hrl : s.rl = RateLimiter.new t0) (hm : 1 ≤ s.cfg.maxPerIp) (hg : 1 ≤ s.cfg.maxGlobal) (ht : InTime t0 (as ++ js ++ [r])) (h0 : t0 + 1000000000 ≤ t)
    (hbefore : ∀ a ∈ as, LongBefore t a) (hdur : ∀ j ∈ js ++ [r], WithinSecond t j ∧ 94 ≤ j.dg.length) (hsrc : (js.map (fun j => normalizeIp j.src)).Nodup)
    (hn : s.cfg.maxGlobal ≤ js.length) :
    (∃ e, (e = .rateIp ∨ e = .rateGlobal) ∧ (deliver A s w (as ++ js ++ [r])).2.2 = (deliver A s w (as ++ js)).2.2 ++ [.error e]) ∧
      forwards (deliver A s w (as ++ js ++ [r])).2.1.log = forwards (deliver A s w (as ++ js)).2.1.log := by
  have hf : Fit s := ⟨hb, hlen⟩
  obtain ⟨hf1, hc1, hk1⟩ := deliver_fit A as hf w
  have hin1 := (InTime.append (InTime.append ht).1).1
  have hord : ∀ j ∈ js ++ [r], InTime1 t j.rd ∧ j.rd.globalReset < t + SECOND := by
    intro j hj
    obtain ⟨u, hu⟩ := inTime1_mem ht (a := j) (by rw [List.append_assoc]; exact List.mem_append_right _ hj)
    have h1 := (hdur j hj).1
    exact ⟨inTime1_from hu h1.1, h1.2⟩
  have hsp : Sprayed t s.cfg.maxGlobal 0 [] (deliver A s w as).1.rl := by
    rw [deliver_rl A as hf w t0, hrl]
    have hlim := limited_timed hin1
    have hop := limit_opened (m := s.cfg.maxPerIp) (g := s.cfg.maxGlobal) (limited t0 as) [] (Sane.new t0) (by intro ip s h; cases h) hlim
    obtain ⟨_, u, hsane, _⟩ := timed_append (m := s.cfg.maxPerIp) (g := s.cfg.maxGlobal) (b := []) (by rw [List.append_nil]; exact hlim) (Sane.new t0)
    refine ⟨hsane.nodup, ?_, Or.inl ⟨rfl, ?_⟩⟩
    · intro ip sl _ hlk
      obtain ⟨x, hx, _, h2⟩ := hop _ _ hlk
      obtain ⟨a, ha, _, _, h3⟩ := limited_mem hx
      have h4 := hbefore a ha
      have h5 := (inTime_mem hin1 ha).2.2.2
      unfold LongBefore at h4
      rw [h3] at h2
      show _ + 1000000000 ≤ _
      omega
    · show _ + 1000000000 ≤ _
      have := global_start_le (m := s.cfg.maxPerIp) (g := s.cfg.maxGlobal) (limited t0 as) (rl := RateLimiter.new t0) (T := t - 1000000000) (by simp only [RateLimiter.new]; omega) (by
        intro x hx
        obtain ⟨a, ha, _, _, h3⟩ := limited_mem hx
        have h4 := hbefore a ha
        unfold LongBefore at h4
        rw [h3]
        omega)
      omega
  rw [← hc1] at hsp
  have hap := deliver_append A as js hf w
  obtain ⟨seen, hsp⟩ := sprayed_deliver A t js hf1 (deliver A s w as).2.1 0 [] (by rw [hc1]; exact hm) hsp (fun j hj => (hdur j (List.mem_append_left _ hj)).2) (by simpa using hsrc)
    (fun j hj => hord j (List.mem_append_left _ hj))
  have hr := List.mem_append_right js (List.mem_singleton.2 (rfl : r = r))
  rw [hc1] at hsp
  have hrl2 : (deliver A s w (as ++ js)).1.rl = (deliver A (deliver A s w as).1 (deliver A s w as).2.1 js).1.rl := by rw [hap]
  rw [← hrl2] at hsp
  rcases hsp.refused (m := s.cfg.maxPerIp) hg (by omega) (normalizeIp r.src) (hord r hr).1 (hord r hr).2 with h | h
  · obtain ⟨h1, _, h3⟩ := refused_last A (as ++ js) r hf w (hdur r hr).2 .rateIp h
    exact ⟨⟨_, Or.inl rfl, h1⟩, by rw [h3]⟩
  · obtain ⟨h1, _, h3⟩ := refused_last A (as ++ js) r hf w (hdur r hr).2 .rateGlobal h
    exact ⟨⟨_, Or.inr rfl, h1⟩, by rw [h3]⟩

/-! ## Examples -/

/-- A datagram handled at time `t` of the monotonic clock. -/
def exAt (t : Nat) (dg : List Byte) (src : Ip) : Arrival := ⟨dg, src, ⟨fun _ => t, t, t, t, t, t⟩, t, 1100, 1100⟩

/-- Ninety-four bytes that open under no key of the example. -/
def exJunk : List Byte := List.replicate 94 0

/-- A valid request, two pieces of junk with the address of the client, and the client's next request half a second and three seconds later. -/
def exFlood : List Arrival := [exAt 10 (exSealed 5000) (.v4 0x0a000001), exAt 2000000000 exJunk (.v4 0x0a000001), exAt 2100000000 exJunk (.v4 0x0a000001)]

theorem exJunk_opens_not : ¬ OpensAny toyAead exServer exJunk := by
  rintro ⟨h, pt, h1, _⟩
  have : exServer.handlers.get (exJunk.take 8) = none := by decide +kernel
  rw [this] at h1
  cases h1

example : exServer.rl = RateLimiter.new 0 ∧ exServer.cfg.maxPerIp = 2 ∧ exServer.bl.Wf ∧ InTime 0 (exFlood ++ [exAt 2500000000 (exSealed 6000) (.v4 0x0a000001)]) ∧
    InTime 0 (exFlood ++ [exAt 5000000000 (exSealed 6000) (.v4 0x0a000001)]) := by
  refine ⟨rfl, rfl, ?_, ?_, ?_⟩
  · exact exServer_wf
  · simp [InTime, InTime1, exFlood, exAt]
  · simp [InTime, InTime1, exFlood, exAt]

/-- Half a second after the first piece of junk the client is locked out (C89c), three seconds after it is served (C89b). -/
example : (deliver toyAead exServer exEmpty (exFlood ++ [exAt 2500000000 (exSealed 6000) (.v4 0x0a000001)])).2.2 = [.ok (), .error .unknownKey, .error .unknownKey, .error .rateIp] ∧
    (deliver toyAead exServer exEmpty (exFlood ++ [exAt 5000000000 (exSealed 6000) (.v4 0x0a000001)])).2.2 = [.ok (), .error .unknownKey, .error .unknownKey, .ok ()] := by
  constructor <;> decide +kernel

example : (∀ a ∈ exFlood.take 1, LongBefore 2000000000 a) ∧ (∀ j ∈ exFlood.drop 1 ++ [exAt 2500000000 (exSealed 6000) (.v4 0x0a000001)], WithinSecond 2000000000 j ∧ 94 ≤ j.dg.length) ∧
    (∀ a ∈ exFlood, ∀ ip, LongBefore ((exAt 5000000000 (exSealed 6000) (.v4 0x0a000001)).rd.sweep ip) a) := by
  have h : 94 ≤ (exSealed 6000#128).length := by decide +kernel
  simp [exFlood, exAt, LongBefore, WithinSecond, exJunk]
  exact h

/-- A spray: with a global limit of two, two forged sources are enough. -/
example : (deliver toyAead { exServer with cfg := { exServer.cfg with maxGlobal := 2 } } exEmpty
    [exAt 2000000000 exJunk (.v4 1), exAt 2000000001 exJunk (.v4 2), exAt 2000000002 (exSealed 6000) (.v4 0x0a000001)]).2.2 =
      [.error .unknownKey, .error .unknownKey, .error .rateGlobal] := by
  decide +kernel

end Ruroco
