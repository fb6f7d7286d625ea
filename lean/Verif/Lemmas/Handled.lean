import Verif.Lemmas.Server
import Verif.Lemmas.Protocol
import Verif.Spec.Server

/-! Complete case analysis of processing one datagram. -/

namespace Ruroco

open Spec (Acceptable Seals RateOk SameHost)

theorem deserialize_normal {pt : List Byte} {d : ClientData} (h : ClientData.deserialize pt = .ok d) :
    normalizeIp d.dstIp = d.dstIp ∧ ∀ ip, d.srcIp = some ip → normalizeIp ip = ip := by
  unfold ClientData.deserialize at h
  split at h
  · cases h
  · split at h
    · cases h
    · simp only [Except.ok.injEq] at h
      subst h
      refine ⟨?_, ?_⟩
      · show normalizeIp (deserializeIp _) = deserializeIp _
        unfold deserializeIp
        exact normalizeIp_idem _
      intro ip hip
      simp only at hip
      split at hip
      · cases hip
        unfold deserializeIp
        exact normalizeIp_idem _
      · cases hip

theorem authenticates_iff {A : Aead} {s : Server} {dg : List Byte} {d : ClientData} :
    (∃ k pt, Authenticates A s dg k pt ∧ ClientData.deserialize pt = .ok d) ↔
      94 ≤ dg.length ∧ ∃ h, s.handlers.get (dg.take 8) = some h ∧ Seals A h.key dg d := by
  have parts : ((dg.take 94).drop 8).take 12 = slice dg 8 20 ∧ slice ((dg.take 94).drop 8) 12 28 = slice dg 20 36 ∧
      ((dg.take 94).drop 8).drop 28 = slice dg 36 94 := by
    unfold slice
    simp only [List.drop_drop, List.take_drop, List.take_take]
    simp
  have hdec : ∀ (h : CryptoHandler) (pt : List Byte), h.decrypt A ((dg.take 94).drop 8) = .ok pt ↔
      A.dec h.key (slice dg 8 20) (slice dg 20 36) (slice dg 36 94) = some pt ∧ pt.length = 58 := by
    intro h pt
    have hdef : h.decrypt A ((dg.take 94).drop 8) =
        match A.dec h.key (((dg.take 94).drop 8).take 12) (slice ((dg.take 94).drop 8) 12 28) (((dg.take 94).drop 8).drop 28) with
        | none => .error .decrypt
        | some p => if p.length ≠ 58 then .error .decrypt else .ok p := rfl
    rw [hdef, parts.1, parts.2.1, parts.2.2]
    cases hd : A.dec h.key (slice dg 8 20) (slice dg 20 36) (slice dg 36 94) with
    | none => simp
    | some p =>
      simp only
      by_cases hl : p.length = 58
      · rw [if_neg (by simpa using hl)]
        constructor
        · intro e; cases e; exact ⟨rfl, hl⟩
        · rintro ⟨e, _⟩; cases e; rfl
      · rw [if_pos hl]
        constructor
        · intro e; cases e
        · rintro ⟨e, h'⟩; cases e; exact absurd h' hl
  constructor
  · rintro ⟨k, pt, ⟨h1, rfl, h, hg, hd⟩, hdd⟩
    obtain ⟨e1, e2⟩ := (hdec h pt).1 hd
    exact ⟨h1, h, hg, pt, e1, e2, hdd⟩
  · rintro ⟨h1, h, hg, pt, e1, e2, hdd⟩
    exact ⟨_, pt, ⟨h1, rfl, h, hg, (hdec h pt).2 ⟨e1, e2⟩⟩, hdd⟩

/-- All conditions for acting on `dg` hold, with the given clock reading and rate-limiter result. -/
structure ActsWith (A : Aead) (s : Server) (dg : List Byte) (src : Ip) (rd : Readings) (w : World)
    (rl : RateLimiter) (now : U128) (c : List (Option U128)) (d : ClientData) : Prop where
  rate : RateOk s src rd rl
  clock : w.clock = some now :: c
  acc : Acceptable A s now.toNat src dg d

/-- Every way processing a datagram can end. -/
inductive Handled (A : Aead) (s : Server) (dg : List Byte) (src : Ip) (rd : Readings) (w : World) :
    Out (Server × Except Err Unit) → World → Prop
  | rejected (e : Err) (rl : RateLimiter) (c : List (Option U128)) (he : e ≠ .save)
      (hn : ∀ rl now c d, ¬ ActsWith A s dg src rd w rl now c d)
      (hrl : (rl = s.rl ∧ dg.length < 94) ∨ rl = (s.rl.check (normalizeIp src) s.cfg.maxPerIp s.cfg.maxGlobal rd).2) :
      Handled A s dg src rd w (.ok ({ s with rl }, .error e)) { w with clock := c }
  | saveFailed (rl : RateLimiter) (now : U128) (c : List (Option U128)) (d : ClientData) (e : Err) (w' : World)
      (ha : ActsWith A s dg src rd w rl now c d)
      (hs : Saved s.bl.path (s.bl.map.insert (dg.take 8) d.counter) (.err e) { w with clock := c } w') :
      Handled A s dg src rd w (.ok ({ s with rl }, .error .save)) w'
  | saveCrashed (rl : RateLimiter) (now : U128) (c : List (Option U128)) (d : ClientData) (w' : World)
      (ha : ActsWith A s dg src rd w rl now c d)
      (hs : Saved s.bl.path (s.bl.map.insert (dg.take 8) d.counter) .crash { w with clock := c } w') :
      Handled A s dg src rd w .crash w'
  | acted (rl : RateLimiter) (now : U128) (c : List (Option U128)) (d : ClientData) (w1 w' : World)
      (ha : ActsWith A s dg src rd w rl now c d)
      (hs : Saved s.bl.path (s.bl.map.insert (dg.take 8) d.counter) (.ok ()) { w with clock := c } w1)
      (hf : Sent d.counter { cmdHash := d.cmdHash, ip := d.srcIp.getD (normalizeIp src) } (.ok ()) w1 w') :
      Handled A s dg src rd w (.ok ({ s with rl, bl := s.bl.upsert (dg.take 8) d.counter }, .ok ())) w'
  | sendCrashed (rl : RateLimiter) (now : U128) (c : List (Option U128)) (d : ClientData) (w1 w' : World)
      (ha : ActsWith A s dg src rd w rl now c d)
      (hs : Saved s.bl.path (s.bl.map.insert (dg.take 8) d.counter) (.ok ()) { w with clock := c } w1)
      (hf : Sent d.counter { cmdHash := d.cmdHash, ip := d.srcIp.getD (normalizeIp src) } .crash w1 w') :
      Handled A s dg src rd w .crash w'

theorem passes_iff {A : Aead} {s : Server} {dg k pt : List Byte} {d : ClientData} {now : U128} {src : Ip} (rl : RateLimiter)
    (ha : Authenticates A s dg k pt) (hd : ClientData.deserialize pt = .ok d) :
    Passes { s with rl } k now (normalizeIp src) d ↔ Acceptable A s now.toNat src dg d := by
  have hn := (deserialize_normal hd).2
  obtain ⟨h1, h2⟩ := authenticates_iff.1 ⟨k, pt, ha, hd⟩
  have hk : k = dg.take 8 := ha.2.1
  subst hk
  constructor
  · intro hp
    refine ⟨h1, h2, hp.fresh, hp.notFuture, hp.dst, ?_⟩
    intro hs ip hip
    rw [← normalizeIp_eq_iff_sameHost, hn ip hip]
    exact hp.src hs ip hip
  · intro ha
    refine ⟨ha.fresh, ha.notFuture, ha.dst, ?_⟩
    intro hs ip hip
    have := ha.src hs ip hip
    rwa [← normalizeIp_eq_iff_sameHost, hn ip hip] at this

theorem authenticates_unique {A : Aead} {s : Server} {dg k k' pt pt' : List Byte} (h : Authenticates A s dg k pt)
    (h' : Authenticates A s dg k' pt') : k = k' ∧ pt = pt' := by
  obtain ⟨_, rfl, h1, hg, hd⟩ := h
  obtain ⟨_, rfl, h1', hg', hd'⟩ := h'
  rw [hg] at hg'
  cases hg'
  rw [hd] at hd'
  cases hd'
  exact ⟨rfl, rfl⟩

/-- **Case analysis of one datagram.** -/
theorem iteration_handled (A : Aead) (s : Server) (hb : s.bl.Wf) (dg : List Byte) (src : Ip) (rd : Readings) (w : World) :
    wp (s.iteration A dg src rd) w (Handled A s dg src rd w) := by
  apply wp_iteration
  · intro e rl he hr
    refine Handled.rejected e rl w.clock he ?_ ?_
    · intro rl' now c d ha
      rcases hr with ⟨x, hx⟩ | ⟨_, hl⟩ | ⟨_, hna⟩
      · have := ha.rate
        unfold RateOk at this
        rw [hx] at this; cases this
      · have := ha.acc.size; omega
      · obtain ⟨k, pt, h, _⟩ := authenticates_iff.2 ⟨ha.acc.size, ha.acc.sealed⟩
        exact hna k pt h
    · rcases hr with ⟨x, hx⟩ | hl | ⟨hx, _⟩
      · right; rw [hx]
      · exact Or.inl hl
      · right; rw [hx]
  · intro rl k pt hv hauth
    have hk : k = dg.take 8 := hauth.2.1
    have hrl : rl = (s.rl.check (normalizeIp src) s.cfg.maxPerIp s.cfg.maxGlobal rd).2 := by rw [hv]
    have huniq : ∀ {d' : ClientData}, (94 ≤ dg.length ∧ ∃ h, s.handlers.get (dg.take 8) = some h ∧ Seals A h.key dg d') →
        ClientData.deserialize pt = .ok d' := by
      intro d' h'
      obtain ⟨k', pt', ha', hd'⟩ := authenticates_iff.2 h'
      obtain ⟨_, rfl⟩ := authenticates_unique hauth ha'
      exact hd'
    apply wp_validate
    · intro c hc
      refine Handled.rejected .clock rl c (by simp) ?_ (Or.inr hrl)
      intro rl' now c' d ha
      exact hc now c' ha.clock
    · intro now c e hclk hdec
      cases hdec with
      | reject _ h he =>
        refine Handled.rejected e rl c he ?_ (Or.inr hrl)
        intro rl' now' c' d ha
        have hd := huniq ⟨ha.acc.size, ha.acc.sealed⟩
        have hnow : now' = now := by
          have := ha.clock; rw [hclk] at this; cases this; rfl
        subst hnow
        exact h d hd ((passes_iff rl hauth hd).2 ha.acc)
    · intro now c d hclk hd hp
      have ha : ActsWith A s dg src rd w rl now c d := ⟨hv, hclk, (passes_iff rl hauth hd).1 hp⟩
      subst hk
      apply wp_act { s with rl } (by exact hb) _ hauth.key_length
      · intro e w' h; exact .saveFailed rl now c d e w' ha h
      · intro w' h; exact .saveCrashed rl now c d w' ha h
      · intro w1 o w' h1 h2
        rcases h2.out with rfl | rfl
        · exact .acted rl now c d w1 w' ha h1 h2
        · exact .sendCrashed rl now c d w1 w' ha h1 h2

end Ruroco
