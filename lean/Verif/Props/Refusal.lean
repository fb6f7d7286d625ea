import Verif.Props.RefusalText

/-!
# C124: a refusal in the server's log says why
-/

namespace Ruroco

open Spec

/-- `r` is the failure with which `o` ended, if it ended with one. -/
def EndsWith (r : Option Refusal) (o : Out (Server × Except Err Unit)) : Prop :=
  match r with
  | some x => ∃ s', o = .ok (s', .error x.kind)
  | none => ∀ s' e, o ≠ .ok (s', .error e)

theorem deserialize_error {pt : List Byte} {e : Err} (h : ClientData.deserialize pt = .error e) : e = .version ∧ (pt = [] ∨ ∃ v rest, pt = v :: rest ∧ v ≠ 1) := by
  unfold ClientData.deserialize at h
  split at h
  · cases h; exact ⟨rfl, Or.inl rfl⟩
  · rename_i v rest
    split at h
    · rename_i hv
      cases h
      exact ⟨rfl, Or.inr ⟨v, rest, rfl, hv⟩⟩
    · cases h

theorem updateBlockList_ends (s : Server) (k : List Byte) (c : U128) (w : World) :
    (∃ s', (s.updateBlockList k c w).1 = .ok (s', .error .save)) ∨ (∃ s', (s.updateBlockList k c w).1 = .ok (s', .ok ())) ∨ (s.updateBlockList k c w).1 = .crash := by
  unfold Server.updateBlockList
  show (∃ s', (Act.bind _ _ _).1 = _) ∨ (∃ s', (Act.bind _ _ _).1 = _) ∨ (Act.bind _ _ _).1 = _
  unfold Act.bind Act.attempt
  cases hs : (s.bl.upsert k c).save w with
  | mk o w1 =>
    cases o with
    | ok u => exact Or.inr (Or.inl ⟨_, rfl⟩)
    | err e => exact Or.inl ⟨_, rfl⟩
    | crash => exact Or.inr (Or.inr rfl)

theorem updateBlockList_rl (s : Server) (rl : RateLimiter) (k : List Byte) (c : U128) (w : World) :
    (∃ s', (({ s with rl } : Server).updateBlockList k c w).1 = .ok (s', .error .save)) ↔ ∃ s', (s.updateBlockList k c w).1 = .ok (s', .error .save) := by
  unfold Server.updateBlockList
  show (∃ s', (Act.bind _ _ _).1 = _) ↔ (∃ s', (Act.bind _ _ _).1 = _)
  unfold Act.bind Act.attempt
  cases hs : (s.bl.upsert k c).save w with
  | mk o w1 =>
    cases o with
    | ok u => constructor <;> (rintro ⟨_, h⟩; cases h)
    | err e => exact ⟨fun _ => ⟨_, rfl⟩, fun _ => ⟨_, rfl⟩⟩
    | crash => constructor <;> (rintro ⟨_, h⟩; cases h)

theorem nowNanos_cases (w : World) :
    (∃ t c, w.clock = some t :: c ∧ nowNanos.attempt w = (.ok (.ok t), { w with clock := c })) ∨
      (w.clock.head?.bind id = none ∧ ∃ c, nowNanos.attempt w = (.ok (.error .clock), { w with clock := c })) := by
  cases hc : w.clock with
  | nil =>
    refine Or.inr ⟨rfl, [], ?_⟩
    unfold nowNanos Act.attempt
    simp only [hc]
    rw [← hc]
  | cons a c =>
    cases a with
    | none =>
      refine Or.inr ⟨rfl, c, ?_⟩
      unfold nowNanos Act.attempt
      simp only [hc]
    | some t => exact Or.inl ⟨t, c, rfl, nowNanos_some hc⟩

theorem validate_ends (s : Server) (rl : RateLimiter) (k pt : List Byte) (src : Ip) (w : World) : EndsWith (s.validateRefusal k pt src w) ((({ s with rl } : Server).validateAndSend k pt src w).1) := by
  unfold Server.validateRefusal Server.validateAndSend
  show EndsWith _ (Act.bind _ _ _).1
  unfold Act.bind
  rcases nowNanos_cases w with ⟨t, c, _, hn⟩ | ⟨_, c, hn⟩
  · have hn1 := hn
    generalize ({ w with clock := c } : World) = w1 at hn1
    rw [hn1]
    simp only
    cases hd : ClientData.deserialize pt with
    | error e =>
      simp only
      rw [(deserialize_error hd).1]
      exact ⟨_, rfl⟩
    | ok d =>
      simp only
      by_cases h1 : s.bl.isCounterReplayed k d.counter = true
      · rw [if_pos h1, if_pos h1]; exact ⟨_, rfl⟩
      rw [if_neg h1, if_neg h1]
      by_cases h2 : d.counter.toNat > (maxFutureCounter t s.cfg.skewSeconds).toNat
      · rw [if_pos h2, if_pos h2]; exact ⟨_, rfl⟩
      rw [if_neg h2, if_neg h2]
      by_cases h3 : (!s.cfg.ips.contains d.dstIp) = true
      · rw [if_pos h3, if_pos h3]; exact ⟨_, rfl⟩
      rw [if_neg h3, if_neg h3]
      by_cases h4 : d.isSourceIpInvalid src = true
      · rw [if_pos h4, if_pos h4]; exact ⟨_, rfl⟩
      rw [if_neg h4, if_neg h4]
      show EndsWith _ (Act.bind _ _ _).1
      unfold Act.bind
      have hrl := updateBlockList_rl s rl k d.counter w1
      have he := updateBlockList_ends s k d.counter w1
      have he' := updateBlockList_ends { s with rl } k d.counter w1
      cases hu' : ({ s with rl } : Server).updateBlockList k d.counter w1 with
      | mk o' w2 =>
        rw [hu'] at he' hrl
        simp only at he' hrl
        rcases he' with ⟨s1, rfl⟩ | h'
        · obtain ⟨s2, e2⟩ := hrl.1 ⟨s1, rfl⟩
          rw [e2]
          exact ⟨_, rfl⟩
        · have hne : ¬ ∃ s', (s.updateBlockList k d.counter w1).1 = .ok (s', .error .save) := by
            intro hx
            obtain ⟨s3, e3⟩ := hrl.2 hx
            rcases h' with ⟨s4, e4⟩ | e4
            · rw [e4] at e3; cases e3
            · rw [e4] at e3; cases e3
          rcases he with hx | ⟨s3, e3⟩ | e3
          · exact absurd hx hne
          all_goals
            rw [e3]
            intro s5 e5 hc
            rcases h' with ⟨s4, rfl⟩ | rfl
            · simp only at hc
              revert hc
              show (Act.bind _ _ _).1 = _ → False
              unfold Act.bind
              cases hsc : (sendCommand d.counter { cmdHash := d.cmdHash, ip := d.srcIp.getD src } w2) with
              | mk o3 w3 =>
                cases o3 <;> intro hc <;> cases hc
            · cases hc
  · rw [hn]
    exact ⟨_, rfl⟩

theorem decrypt_ends (A : Aead) (s : Server) (data : List Byte) :
    match s.decryptRefusal A data with
    | some x => s.decryptMsg A data = .error x.kind
    | none => ∃ r, s.decryptMsg A data = .ok r := by
  unfold Server.decryptRefusal Server.decryptMsg
  simp only
  cases s.handlers.get (decode data).1 with
  | none => rfl
  | some h =>
    simp only
    unfold CryptoHandler.decrypt
    cases hd : A.dec h.key ((decode data).2.take IV_SIZE) (slice (decode data).2 IV_SIZE (IV_SIZE + TAG_SIZE)) ((decode data).2.drop (IV_SIZE + TAG_SIZE)) with
    | none => simp only [hd]; rfl
    | some p =>
      simp only [hd]
      by_cases hl : p.length ≠ PLAINTEXT_SIZE
      · rw [if_pos hl, if_pos hl]; rfl
      · rw [if_neg hl, if_neg hl]; exact ⟨_, rfl⟩

theorem check_error {rl : RateLimiter} {ip : Ip} {a b : Nat} {rd : Readings} {e : Err} (h : (rl.check ip a b rd).1 = .error e) : e = .rateIp ∨ e = .rateGlobal := by
  unfold RateLimiter.check at h
  simp only at h
  split at h
  · cases h; exact Or.inl rfl
  · split at h
    · cases h; exact Or.inr rfl
    · cases h

/-- **C124**: the server says why it did not act, and only then. -/
theorem refusal_ends (A : Aead) (s : Server) (dg : List Byte) (src : SockAddr) (rd : Readings) (w : World) : EndsWith (s.refusal A dg src rd w) (s.iteration A dg src.ip rd w).1 := by
  unfold Server.refusal Server.iteration
  simp only
  by_cases hl : (dg.take MSG_SIZE).length ≠ MSG_SIZE
  · rw [if_pos hl, if_pos hl]; exact ⟨_, rfl⟩
  rw [if_neg hl, if_neg hl]
  cases hc : s.rl.check (normalizeIp src.ip) s.cfg.maxPerIp s.cfg.maxGlobal rd with
  | mk v rl =>
    cases v with
    | error e =>
      rcases check_error (congrArg Prod.fst hc) with rfl | rfl
      · exact ⟨_, rfl⟩
      · exact ⟨_, rfl⟩
    | ok u =>
      simp only
      have hd := decrypt_ends A s (dg.take MSG_SIZE)
      have hsame : ({ s with rl } : Server).decryptMsg A (dg.take MSG_SIZE) = s.decryptMsg A (dg.take MSG_SIZE) := rfl
      rw [hsame]
      cases hr : s.decryptRefusal A (dg.take MSG_SIZE) with
      | some x =>
        rw [hr] at hd
        simp only at hd
        rw [hd]
        exact ⟨_, rfl⟩
      | none =>
        rw [hr] at hd
        simp only at hd
        obtain ⟨⟨k, pt⟩, hd⟩ := hd
        rw [hd]
        exact validate_ends s rl k pt (normalizeIp src.ip) w

/-! ## What it says is so -/

theorem decryptRefusal_holds {A : Aead} {s : Server} {dg : List Byte} {x : Refusal} (src : SockAddr) (rd : Readings) (now : Option U128) (h : s.decryptRefusal A (dg.take 94) = some x) : Holds A s dg src rd now x := by
  have parts : ((dg.take 94).drop 8).take 12 = slice dg 8 20 ∧ slice ((dg.take 94).drop 8) 12 28 = slice dg 20 36 ∧
      ((dg.take 94).drop 8).drop 28 = slice dg 36 94 := by
    unfold slice
    simp only [List.drop_drop, List.take_drop, List.take_take]
    simp
  have hk : (dg.take 94).take 8 = dg.take 8 := by rw [List.take_take]; rfl
  have hdef : s.decryptRefusal A (dg.take 94) =
      match s.handlers.get ((dg.take 94).take 8) with
      | none => some (.unknownKey ((dg.take 94).take 8))
      | some h =>
        match A.dec h.key (((dg.take 94).drop 8).take 12) (slice ((dg.take 94).drop 8) 12 28) (((dg.take 94).drop 8).drop 28) with
        | none => some .unopened
        | some p => if p.length ≠ 58 then some .badLength else none := rfl
  rw [hdef, hk, parts.1, parts.2.1, parts.2.2] at h
  cases hg : s.handlers.get (dg.take 8) with
  | none =>
    rw [hg] at h
    cases h
    exact ⟨rfl, hg⟩
  | some hh =>
    rw [hg] at h
    simp only at h
    cases hd : A.dec hh.key (slice dg 8 20) (slice dg 20 36) (slice dg 36 94) with
    | none =>
      rw [hd] at h
      cases h
      exact ⟨hh, hg, hd⟩
    | some p =>
      rw [hd] at h
      simp only at h
      by_cases hl : p.length ≠ 58
      · rw [if_pos hl] at h
        cases h
        exact ⟨p, ⟨hh, hg, hd⟩, hl⟩
      · rw [if_neg hl] at h
        cases h

theorem maxFuture_exceeded {t c : U128} {skew : U64} (h : c.toNat > (maxFutureCounter t skew).toNat) : (maxFutureCounter t skew).toNat = t.toNat + skew.toNat * 1000000000 := by
  have h1 := c.isLt
  have h2 := skew.isLt
  have h3 : (BitVec.ofNat 128 (skew.toNat * 1000000000)).toNat = skew.toNat * 1000000000 := by
    simp only [BitVec.toNat_ofNat]; omega
  revert h
  unfold maxFutureCounter satAdd
  rw [h3]
  split
  · intro _
    rw [BitVec.toNat_add, h3]
    omega
  · rw [BitVec.toNat_allOnes]
    omega

theorem validateRefusal_holds {A : Aead} {s : Server} {dg k pt : List Byte} {x : Refusal} {src : SockAddr} {w : World} (rd : Readings) (ha : Authenticates A s dg k pt)
    (h : s.validateRefusal k pt (normalizeIp src.ip) w = some x) : Holds A s dg src rd (w.clock.head?.bind id) x := by
  obtain ⟨hl, rfl, hh, hg, hd⟩ := id ha
  have hc : ∀ d, ClientData.deserialize pt = .ok d → Carries A s dg d := fun d e => (authenticates_iff.1 ⟨_, pt, ha, e⟩).2
  have hop : OpensTo A s dg (some pt) ∧ pt.length = 58 := by
    have parts : ((dg.take 94).drop 8).take 12 = slice dg 8 20 ∧ slice ((dg.take 94).drop 8) 12 28 = slice dg 20 36 ∧
        ((dg.take 94).drop 8).drop 28 = slice dg 36 94 := by
      unfold slice
      simp only [List.drop_drop, List.take_drop, List.take_take]
      simp
    have hdef : hh.decrypt A ((dg.take 94).drop 8) =
        match A.dec hh.key (((dg.take 94).drop 8).take 12) (slice ((dg.take 94).drop 8) 12 28) (((dg.take 94).drop 8).drop 28) with
        | none => .error .decrypt
        | some p => if p.length ≠ 58 then .error .decrypt else .ok p := rfl
    rw [hdef, parts.1, parts.2.1, parts.2.2] at hd
    cases hd' : A.dec hh.key (slice dg 8 20) (slice dg 20 36) (slice dg 36 94) with
    | none => rw [hd'] at hd; cases hd
    | some p =>
      rw [hd'] at hd
      simp only at hd
      split at hd
      · cases hd
      · rename_i hlen
        cases hd
        exact ⟨⟨hh, hg, hd'⟩, by omega⟩
  unfold Server.validateRefusal at h
  rcases nowNanos_cases w with ⟨t, c, hclk, hn⟩ | ⟨hclk, c, hn⟩
  · generalize ({ w with clock := c } : World) = w1 at hn
    have hnow : w.clock.head?.bind id = some t := by rw [hclk]; rfl
    rw [hnow]
    rw [hn] at h
    simp only at h
    cases hde : ClientData.deserialize pt with
    | error e =>
      rw [hde] at h
      cases h
      rcases (deserialize_error hde).2 with rfl | ⟨v, rest, rfl, hv⟩
      · cases hop.2
      · exact ⟨hv, rest, hop.1⟩
    | ok d =>
      rw [hde] at h
      simp only at h
      have hcd := hc d hde
      by_cases h1 : s.bl.isCounterReplayed (dg.take 8) d.counter = true
      · rw [if_pos h1] at h
        cases h
        refine ⟨rfl, rfl, ?_, d, hcd, rfl⟩
        intro v hv
        apply Nat.not_lt.1
        intro hlt
        rw [isCounterReplayed_false.2 ⟨v, hv, hlt⟩] at h1
        cases h1
      rw [if_neg h1] at h
      by_cases h2 : d.counter.toNat > (maxFutureCounter t s.cfg.skewSeconds).toNat
      · rw [if_pos h2] at h
        cases h
        exact ⟨rfl, h2, ⟨t, rfl, maxFuture_exceeded h2⟩, d, hcd, rfl⟩
      rw [if_neg h2] at h
      by_cases h3 : (!s.cfg.ips.contains d.dstIp) = true
      · rw [if_pos h3] at h
        cases h
        exact ⟨rfl, rfl, by simpa using h3, d, hcd, rfl⟩
      rw [if_neg h3] at h
      by_cases h4 : d.isSourceIpInvalid (normalizeIp src.ip) = true
      · rw [if_pos h4] at h
        cases h
        unfold ClientData.isSourceIpInvalid at h4
        rw [Bool.and_eq_true] at h4
        refine ⟨rfl, rfl, ?_, d, hcd, h4.1, rfl⟩
        cases hs : d.srcIp with
        | none => rw [hs] at h4; cases h4.2
        | some ip => rw [hs] at h4; exact ⟨ip, rfl, by simpa using h4.2⟩
      rw [if_neg h4] at h
      have hx : x = .save := by
        split at h
        · cases h; rfl
        · cases h
      subst hx
      refine ⟨t, d, rfl, (passes_iff s.rl ha hde (now := t) (src := src.ip)).1 ⟨?_, ?_, ?_, ?_⟩⟩
      · exact isCounterReplayed_false.1 (by simpa using h1)
      · exact (maxFutureCounter_toNat _ _ _).1 (Nat.not_lt.1 h2)
      · simpa using h3
      · exact isSourceIpInvalid_false.1 (by simpa using h4)
  · rw [hn] at h
    cases h
    exact hclk

theorem authenticates_of_decryptMsg {A : Aead} {s : Server} {dg k pt : List Byte} (hl : 94 ≤ dg.length) (h : s.decryptMsg A (dg.take MSG_SIZE) = .ok (k, pt)) : Authenticates A s dg k pt := by
  have e8 : (dg.take MSG_SIZE).take 8 = dg.take 8 := by
    rw [List.take_take]; rfl
  have hdef : s.decryptMsg A (dg.take MSG_SIZE) =
      (match s.handlers.get ((dg.take MSG_SIZE).take 8) with
        | none => Except.error Err.unknownKey
        | some h => match h.decrypt A ((dg.take 94).drop 8) with
          | .error e => .error e
          | .ok p => .ok ((dg.take MSG_SIZE).take 8, p)) := rfl
  rw [hdef, e8] at h
  cases hg : s.handlers.get (dg.take 8) with
  | none => rw [hg] at h; cases h
  | some hh =>
    rw [hg] at h
    simp only at h
    cases hd : hh.decrypt A ((dg.take 94).drop 8) with
    | error e => rw [hd] at h; cases h
    | ok p =>
      rw [hd] at h
      cases h
      exact ⟨hl, rfl, hh, hg, hd⟩

theorem refusal_holds {A : Aead} {s : Server} {dg : List Byte} {src : SockAddr} {rd : Readings} {w : World} {x : Refusal} (h : s.refusal A dg src rd w = some x) :
    Holds A s dg src rd (w.clock.head?.bind id) x := by
  unfold Server.refusal at h
  simp only at h
  by_cases hl : (dg.take MSG_SIZE).length ≠ MSG_SIZE
  · rw [if_pos hl] at h
    cases h
    have h94 : MSG_SIZE = 94 := rfl
    rw [h94, List.length_take] at hl
    refine ⟨?_, by omega, rfl⟩
    rw [h94, List.length_take]
    omega
  rw [if_neg hl] at h
  have hlen : 94 ≤ dg.length := by
    have h94 : MSG_SIZE = 94 := rfl
    rw [h94, List.length_take] at hl
    omega
  cases hc : (s.rl.check (normalizeIp src.ip) s.cfg.maxPerIp s.cfg.maxGlobal rd).1 with
  | error e =>
    rw [hc] at h
    rcases check_error hc with rfl | rfl
    · cases h
      exact ⟨rfl, rfl, hc⟩
    · cases h
      exact ⟨rfl, hc⟩
  | ok u =>
    rw [hc] at h
    simp only at h
    cases hr : s.decryptRefusal A (dg.take MSG_SIZE) with
    | some y =>
      rw [hr] at h
      cases h
      exact decryptRefusal_holds src rd _ hr
    | none =>
      rw [hr] at h
      simp only at h
      cases hd : s.decryptMsg A (dg.take MSG_SIZE) with
      | error e => rw [hd] at h; cases h
      | ok r =>
        obtain ⟨k, pt⟩ := r
        rw [hd] at h
        simp only at h
        exact validateRefusal_holds rd (authenticates_of_decryptMsg hlen hd) h

/-! ## The line in the log -/

theorem iteration_throttle {A : Aead} {s : Server} (hb : s.bl.Wf) {dg : List Byte} {src : Ip} {rd : Readings} {w : World} {s' : Server} {e : Err}
    (h : (s.iteration A dg src rd w).1 = .ok (s', .error e)) : s'.throttle = s.throttle := by
  have hh := iteration_handled A s hb dg src rd w
  unfold wp at hh
  rw [h] at hh
  generalize (s.iteration A dg src rd w).2 = w' at hh
  cases hh <;> rfl

/-- **C124a.** There is an error line about a datagram exactly if the server did not act on it for one of the thirteen reasons and the throttle lets a line through; the line is about that reason. -/
theorem C124_line_iff (A : Aead) (s : Server) (hb : s.bl.Wf) (dg : List Byte) (src : SockAddr) (rd : Readings) (tl : Nat) (w : World) (e : Err) (n : Nat) :
    SrvEntry.failure e n ∈ s.handleLog A dg src.ip rd tl w ↔
      ∃ x, s.refusal A dg src rd w = some x ∧ x.kind = e ∧ s.failureLine A dg src rd tl w = some (throttledText x.text n) ∧ (s.throttle.log tl).1 = some n := by
  have hr := refusal_ends A s dg src rd w
  constructor
  · intro h
    unfold Server.handleLog at h
    rcases List.mem_append.1 h with h | h
    · have hl := iteration_logged A s hb dg src.ip rd w
      generalize s.iterationLog A dg src.ip rd w = l, (s.iteration A dg src.ip rd w).1 = o', (s.iteration A dg src.ip rd w).2 = w' at hl h
      cases hl <;> simp [announcement] at h
    · obtain ⟨s', e', n', ho, hn, hx⟩ := throttle_line h
      cases hx
      cases hq : s.refusal A dg src rd w with
      | none => rw [hq] at hr; exact absurd ho (hr s' e)
      | some x =>
        rw [hq] at hr
        obtain ⟨s2, h2⟩ := hr
        rw [ho] at h2
        cases h2
        rw [iteration_throttle hb ho] at hn
        refine ⟨x, rfl, rfl, ?_, hn⟩
        unfold Server.failureLine
        rw [hq, hn]
  · rintro ⟨x, hq, rfl, _, hn⟩
    rw [hq] at hr
    obtain ⟨s2, h2⟩ := hr
    unfold Server.handleLog
    refine List.mem_append.2 (Or.inr ?_)
    rw [h2]
    have ht := iteration_throttle hb h2
    show _ ∈ ((s2.throttle.log tl).1.map (SrvEntry.failure x.kind)).toList
    rw [ht, hn]
    exact List.mem_singleton.2 rfl

/-- **C124b (partial).** What the error line says is so: it is the text of one reason, with the values that are in it; that reason holds of the datagram that arrived, the key, the stored counter, the
configuration and the clock; and the number of suppressed failures is the real one. Missing: who sent it, and why a counter could not be stored (below). -/
theorem C124_line_is_true_partial (A : Aead) (s : Server) (dg : List Byte) (src : SockAddr) (rd : Readings) (tl : Nat) (w : World) (t : List Char)
    (h : s.failureLine A dg src rd tl w = some t) :
    ∃ x, t = throttledText x.text s.throttle.suppressed ∧ Holds A s dg src rd (w.clock.head?.bind id) x := by
  unfold Server.failureLine at h
  cases hq : s.refusal A dg src rd w with
  | none => rw [hq] at h; cases h
  | some x =>
    rw [hq] at h
    refine ⟨x, ?_, refusal_holds hq⟩
    rcases log_cases s.throttle tl with hl | hl
    · rw [hl] at h; cases h
    · rw [hl] at h
      exact (Option.some.inj h).symm

theorem refusal_port {A : Aead} {s : Server} {dg : List Byte} {src : SockAddr} {rd : Readings} {w : World} {x : Refusal} (hp : src.port < 65536) (h : s.refusal A dg src rd w = some x) : PortOk x := by
  have hh := refusal_holds h
  cases x <;> first | exact True.intro | skip
  show SockAddr.port _ < 65536
  rw [hh.2.2]
  exact hp

/-- **C124c.** Who reads the line knows the reason, every value in it and how many were suppressed: two lines that read the same say the same. -/
theorem C124_line_tells (A : Aead) (s s' : Server) (dg dg' : List Byte) (src src' : SockAddr) (hp : src.port < 65536) (hp' : src'.port < 65536) (rd rd' : Readings) (tl tl' : Nat) (w w' : World)
    (t : List Char) (h : s.failureLine A dg src rd tl w = some t) (h' : s'.failureLine A dg' src' rd' tl' w' = some t) :
    s.refusal A dg src rd w = s'.refusal A dg' src' rd' w' ∧ (s.throttle.log tl).1 = (s'.throttle.log tl').1 := by
  unfold Server.failureLine at h h'
  cases hq : s.refusal A dg src rd w with
  | none => rw [hq] at h; cases h
  | some x =>
    cases hq' : s'.refusal A dg' src' rd' w' with
    | none => rw [hq'] at h'; cases h'
    | some y =>
      rw [hq] at h
      rw [hq'] at h'
      cases hn : (s.throttle.log tl).1 with
      | none => rw [hn] at h; cases h
      | some n =>
        cases hn' : (s'.throttle.log tl').1 with
        | none => rw [hn'] at h'; cases h'
        | some m =>
          rw [hn] at h
          rw [hn'] at h'
          have e : throttledText x.text n = throttledText y.text m := (Option.some.inj h).trans (Option.some.inj h').symm
          obtain ⟨rfl, rfl⟩ := C124_text_tells_all x y n m (refusal_port hp hq) (refusal_port hp' hq') e
          exact ⟨rfl, rfl⟩

/-- **C124d.** The line is one line, and it can not be taken for the announcement of an accepted request or for its outcome, whatever the datagram contains. -/
theorem C124_line_shape (A : Aead) (s : Server) (dg : List Byte) (src : SockAddr) (rd : Readings) (tl : Nat) (w : World) (t : List Char) (h : s.failureLine A dg src rd tl w = some t) :
    '\n' ∉ t ∧ ¬ LooksAccepted t := by
  obtain ⟨x, rfl, _⟩ := C124_line_is_true_partial A s dg src rd tl w t h
  exact ⟨C124_one_line x _, C124_not_mistaken x _⟩

/-! ## What it does not say -/

theorem validateRefusal_src {s : Server} {k pt : List Byte} {a b : Ip} {w : World} {x : Refusal} (h : s.validateRefusal k pt a w = some x) (hx : x.kind ≠ .src) (hy : x.kind ≠ .save) :
    s.validateRefusal k pt b w = some x := by
  unfold Server.validateRefusal at h ⊢
  rcases nowNanos_cases w with ⟨t, c, _, hn⟩ | ⟨_, c, hn⟩
  · rw [hn] at h ⊢
    simp only at h ⊢
    cases hde : ClientData.deserialize pt with
    | error e => rw [hde] at h; exact h
    | ok d =>
      rw [hde] at h
      simp only at h ⊢
      by_cases h1 : s.bl.isCounterReplayed k d.counter = true
      · rw [if_pos h1] at h ⊢; exact h
      rw [if_neg h1] at h ⊢
      by_cases h2 : d.counter.toNat > (maxFutureCounter t s.cfg.skewSeconds).toNat
      · rw [if_pos h2] at h ⊢; exact h
      rw [if_neg h2] at h ⊢
      by_cases h3 : (!s.cfg.ips.contains d.dstIp) = true
      · rw [if_pos h3] at h ⊢; exact h
      rw [if_neg h3] at h
      by_cases h4 : d.isSourceIpInvalid a = true
      · rw [if_pos h4] at h
        cases h
        exact absurd rfl hx
      rw [if_neg h4] at h
      split at h
      · cases h; exact absurd rfl hy
      · cases h
  · rw [hn] at h ⊢
    exact h

/-- **C124e** (refutes "the line says who sent it"): unless the reason is the length, a rate limit, the claimed address or the disk, the line is the same for every sender the rate limits let pass. -/
theorem C124_sender_not_told (A : Aead) (s : Server) (dg : List Byte) (src src' : SockAddr) (rd : Readings) (tl : Nat) (w : World) (x : Refusal) (h : s.refusal A dg src rd w = some x)
    (hk : x.kind ∈ [Err.unknownKey, .decrypt, .clock, .version, .replayed, .future, .dst])
    (hr : (s.rl.check (normalizeIp src'.ip) s.cfg.maxPerIp s.cfg.maxGlobal rd).1 = .ok ()) :
    s.failureLine A dg src' rd tl w = s.failureLine A dg src rd tl w := by
  have hsame : s.refusal A dg src' rd w = some x := by
    unfold Server.refusal at h ⊢
    simp only at h ⊢
    by_cases hl : (dg.take MSG_SIZE).length ≠ MSG_SIZE
    · rw [if_pos hl] at h
      cases h
      exact absurd (show Err.badSize ∈ _ from hk) (by decide)
    rw [if_neg hl] at h ⊢
    rw [hr]
    simp only
    cases hc : (s.rl.check (normalizeIp src.ip) s.cfg.maxPerIp s.cfg.maxGlobal rd).1 with
    | error e =>
      rw [hc] at h
      rcases check_error hc with rfl | rfl
      · cases h
        exact absurd (show Err.rateIp ∈ _ from hk) (by decide)
      · cases h
        exact absurd (show Err.rateGlobal ∈ _ from hk) (by decide)
    | ok u =>
      rw [hc] at h
      simp only at h
      cases hq : s.decryptRefusal A (dg.take MSG_SIZE) with
      | some y => rw [hq] at h; exact h
      | none =>
        rw [hq] at h
        simp only at h ⊢
        cases hd : s.decryptMsg A (dg.take MSG_SIZE) with
        | error e => rw [hd] at h; cases h
        | ok r =>
          obtain ⟨k, pt⟩ := r
          rw [hd] at h
          refine validateRefusal_src h ?_ ?_
          · intro e; rw [e] at hk; revert hk; decide
          · intro e; rw [e] at hk; revert hk; decide
  unfold Server.failureLine
  rw [h, hsame]

/-- The example datagram with another key named. -/
def exStranger : List Byte := 9 :: exDatagram.drop 1

/-- **C124f**: guesses at a key from two different hosts leave the same line. -/
theorem C124_sender_not_told_witness : ∃ t, exServer.failureLine toyAead exStranger ⟨.v4 0x0a000001, 5000⟩ exReadings 10 (exWorld []) = some t ∧
    exServer.failureLine toyAead exStranger ⟨.v4 0x08080808, 6000⟩ exReadings 10 (exWorld []) = some t :=
  ⟨(Refusal.unknownKey [9, 2, 3, 4, 5, 6, 7, 8]).text, by decide +kernel, by decide +kernel⟩

/-- **C124g** (refutes "the line says what went wrong"): when the counter of a legitimate request could not be stored, the line is the same whatever the cause. -/
theorem C124_cause_not_told (A : Aead) (s : Server) (dg : List Byte) (src : SockAddr) (rd : Readings) (tl : Nat) (w w' : World) (x x' : Refusal) (h : s.refusal A dg src rd w = some x)
    (h' : s.refusal A dg src rd w' = some x') (hx : x.kind = .save) (hx' : x'.kind = .save) : s.failureLine A dg src rd tl w = s.failureLine A dg src rd tl w' := by
  have e : ∀ y : Refusal, y.kind = .save → y = .save := by
    intro y hy
    cases y <;> first | rfl | cases hy
  unfold Server.failureLine
  rw [h, h', e x hx, e x' hx']

/-- **C124h**: the temporary file can not be created; or it can not be written to because the disk is full: the same line. -/
theorem C124_cause_not_told_witness : exServer.refusal toyAead exDatagram ⟨.v4 0x0a000001, 5000⟩ exReadings (exWorld [.err 0]) = some .save ∧
    exServer.refusal toyAead exDatagram ⟨.v4 0x0a000001, 5000⟩ exReadings (exWorld [.ok, .err 3]) = some .save := by decide +kernel

/-- The clock can not be read; a datagram of three bytes; a request that is carried out. -/
example : exServer.refusal toyAead exDatagram ⟨.v4 0x0a000001, 5000⟩ exReadings { exWorld [] with clock := [none] } = some .clock ∧
    exServer.refusal toyAead [1, 2, 3] ⟨.v4 0x0a000001, 5000⟩ exReadings (exWorld []) = some (.badSize 3 ⟨.v4 0x0a000001, 5000⟩) ∧
    exServer.refusal toyAead exDatagram ⟨.v4 0x0a000001, 5000⟩ exReadings (exWorld []) = none := by decide +kernel

/-- The texts with values in them. -/
example : (Refusal.badSize 3 ⟨.v4 0x0a000001, 5000⟩).text = "Invalid read count 3, expected 94 from 10.0.0.1:5000".toList := by decide +kernel

example : (Refusal.rateIp (.v4 0x0a000001) 5).text = "Rate limit exceeded for 10.0.0.1: more than 5 requests per second".toList := by decide +kernel

example : (Refusal.rateGlobal 50).text = "Global rate limit exceeded: more than 50 requests per second".toList := by decide +kernel

example : (Refusal.unknownKey [9, 2, 255]).text = "Could not find key for id [9, 2, FF]".toList := by decide +kernel

example : (Refusal.version 2).text = "Unsupported protocol version 2, expected 1".toList := by decide +kernel

example : (Refusal.replayed [1] 5 (some 7)).text = "Invalid counter for key [1] - 5 is on blocklist, expected > Some(7)".toList := by decide +kernel

example : (Refusal.future [1] 7 5).text = "Future counter for key [1] - 7 exceeds now + skew (5); not updating blocklist".toList := by decide +kernel

example : (Refusal.host [1] [.v4 1, .v4 2] (.v4 3)).text = "Invalid host IP for key [1] - expected [0.0.0.1, 0.0.0.2] to contain 0.0.0.3".toList := by decide +kernel

example : (Refusal.source [1] (some (.v4 1)) (.v4 2)).text = "Invalid source IP for key [1] - expected 0.0.0.1, actual 0.0.0.2".toList := by decide +kernel

end Ruroco
