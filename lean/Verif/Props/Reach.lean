import Verif.Spec.Reach
import Verif.Props.EndToEnd
import Verif.Props.Keys
import Verif.Props.TwoServers
import Verif.Props.Installation

/-!
# C116: a server that runs can be reached

Not so: `ips = []` and `max_requests_per_second = 0` are accepted, and such a server runs and refuses everything.
-/

namespace Ruroco

open Spec (Acceptable Seals RateOk forwards message IsKeyFile keyOf promptly Prompt Deaf Exhausted SameHost)

/-- A limit of 0 per address lets nothing through, if the limiter takes no time. -/
theorem check_zero (rl : RateLimiter) (ip : Ip) (g t : Nat) : (rl.check ip 0 g (promptly t)).1 = .error .rateIp := by
  have key : ∀ s, lookupIp (dropOld rl.perIp (promptly t)) ip = some s → t - s.start < SECOND := by
    intro s hs
    unfold dropOld at hs
    generalize rl.perIp = l at hs
    induction l with
    | nil => cases hs
    | cons x l ih =>
      rw [List.filter_cons] at hs
      split at hs
      · rename_i hx
        obtain ⟨i, s'⟩ := x
        unfold lookupIp at hs
        split at hs
        · cases hs
          exact of_decide_eq_true hx
        · exact ih hs
      · exact ih hs
  unfold RateLimiter.check
  have hb : (((lookupIp (dropOld rl.perIp (promptly t)) ip).getD ⟨t, 0⟩).bump 0 t t).1 = false := by
    cases hl : lookupIp (dropOld rl.perIp (promptly t)) ip with
    | none =>
      have hp : 0 < SECOND := by unfold SECOND; omega
      simp only [Option.getD_none, Slot.bump]
      rw [if_neg (by omega), if_pos (Nat.zero_le _)]
    | some s =>
      have := key s hl
      simp only [Option.getD_some, Slot.bump]
      rw [if_neg (by omega), if_pos (Nat.zero_le _)]
  simp only [promptly] at hb ⊢
  simp [hb]

/-- A second after the start, the first request of an address passes. -/
theorem check_first (t0 m g t : Nat) (h2 : t - t0 ≥ SECOND) (hm : 1 ≤ m) (ip : Ip) :
    ∃ rl, (RateLimiter.new t0).check ip m g (promptly t) = (.ok (), rl) := by
  have hp : 0 < SECOND := by unfold SECOND; omega
  have h3 : ¬ 0 ≥ m := by omega
  have h1 : ¬ t - t ≥ SECOND := by omega
  unfold RateLimiter.check RateLimiter.new Slot.bump dropOld
  simp only [promptly, lookupIp, List.filter_nil, Option.getD_none, h1, h2, h3, if_true, if_false]
  exact ⟨_, rfl⟩

theorem deaf_of {A : Aead} {s : Server} (Inv : Server → Prop) (h0 : Inv s)
    (h : ∀ (s' : Server) (w w' : World) (dg : List Byte) (src : Ip) (t tl : Nat) (o : Out (Server × Except Err Unit)), Inv s' → s'.handleDatagram A dg src (promptly t) tl w = (o, w') →
      (∀ srv r, o = .ok (srv, r) → Inv srv) ∧ forwards w'.log = forwards w.log) : Deaf A s := by
  intro dir w evs sys hrun hno
  suffices H : ∀ s0, Run A dir s0 evs sys → s0 = ⟨w, some s⟩ → (∀ srv, sys.srv = some srv → Inv srv) ∧ forwards sys.w.log = forwards w.log from (H _ hrun rfl).2
  intro s0 hr e0
  induction hr with
  | nil => subst e0; exact ⟨fun srv hs => by cases hs; exact h0, rfl⟩
  | snoc hr hst ih =>
    rename_i s2 s3 evs e
    obtain ⟨ih1, ih2⟩ := ih (e0 ▸ hr) (fun e he => hno e (by simp [he]))
    have hp := (hno e (by simp)).1
    cases hst with
    | started w env cfg senv s w' hdir hord h => exact absurd rfl ((hno _ (by simp)).2 env cfg senv)
    | startFailed w env cfg senv o w' hdir hord h hne => exact absurd rfl ((hno _ (by simp)).2 env cfg senv)
    | packet w1 s1 env dg src rd tLog s' r w' hh =>
      obtain ⟨t, rfl⟩ := hp
      obtain ⟨h1, h2⟩ := h s1 _ _ _ _ _ _ _ (ih1 s1 rfl) hh
      exact ⟨fun srv hs => by cases hs; exact h1 _ _ rfl, h2.trans ih2⟩
    | packetCrash w1 s1 env dg src rd tLog w' hh =>
      obtain ⟨t, rfl⟩ := hp
      obtain ⟨h1, h2⟩ := h s1 _ _ _ _ _ _ _ (ih1 s1 rfl) hh
      exact ⟨fun srv hs => (by cases hs), h2.trans ih2⟩
    | kill w s => exact ⟨fun srv hs => (by cases hs), ih2⟩
    | power w s w' h => exact ⟨fun srv hs => (by cases hs), by simp only [h.log]; exact ih2⟩
    | others w w' s hfs hpend hlog => exact ⟨ih1, by simp only [hlog]; exact ih2⟩

/-- If no datagram is acceptable, nothing changes and nothing is handed on. -/
theorem deaf_of_unacceptable {A : Aead} {s : Server} (hwf : s.bl.Wf)
    (h : ∀ (s' : Server) (now : Nat) (src : Ip) (dg : List Byte) (d : ClientData), s'.cfg = s.cfg → s'.handlers = s.handlers → s'.bl = s.bl → ¬ Acceptable A s' now src dg d) : Deaf A s := by
  refine deaf_of (fun s' => s'.cfg = s.cfg ∧ s'.handlers = s.handlers ∧ s'.bl = s.bl) ⟨rfl, rfl, rfl⟩ ?_
  rintro s1 w w' dg src t tl o ⟨e1, e2, e3⟩ hh
  have hc := packetCase_of_step (by rw [e3]; exact hwf) hh
  cases ho : o with
  | crash =>
    subst ho
    generalize hq : (Out.crash : Out (Server × Except Err Unit)).server = q at hc
    cases hc with
    | nothing s' => cases hq
    | saved now d hclk ha => exact absurd ha (h s1 _ _ _ _ e1 e2 e3)
    | acted now d hclk ha => exact absurd ha (h s1 _ _ _ _ e1 e2 e3)
  | err x =>
    subst ho
    generalize hq : (Out.err x : Out (Server × Except Err Unit)).server = q at hc
    cases hc with
    | nothing s' => cases hq
    | saved now d hclk ha => exact absurd ha (h s1 _ _ _ _ e1 e2 e3)
    | acted now d hclk ha => exact absurd ha (h s1 _ _ _ _ e1 e2 e3)
  | ok y =>
    subst ho
    generalize hq : (Out.ok y : Out (Server × Except Err Unit)).server = q at hc
    cases hc with
    | nothing s' _ hb hh' hc h1 h2 h3 =>
      obtain ⟨a, b⟩ := y
      cases hq
      refine ⟨fun srv r he => ?_, by rw [h3]⟩
      cases he
      exact ⟨hc.trans e1, hh'.trans e2, hb.trans e3⟩
    | saved now d hclk ha => exact absurd ha (h s1 _ _ _ _ e1 e2 e3)
    | acted now d hclk ha => exact absurd ha (h s1 _ _ _ _ e1 e2 e3)

theorem iteration_limited {A : Aead} {s : Server} {dg : List Byte} {src : Ip} {rd : Readings} {e : Err} {rl : RateLimiter} (h : s.rl.check (normalizeIp src) s.cfg.maxPerIp s.cfg.maxGlobal rd = (.error e, rl))
    (w : World) : ∃ s' r, s.iteration A dg src rd w = (.ok (s', r), w) ∧ s'.cfg = s.cfg := by
  unfold Server.iteration
  simp only [h]
  split
  · exact ⟨_, _, rfl, rfl⟩
  · exact ⟨_, _, rfl, rfl⟩

theorem deaf_of_zero {A : Aead} {s : Server} (hz : s.cfg.maxPerIp = 0) : Deaf A s := by
  refine deaf_of (fun s' => s'.cfg = s.cfg) rfl ?_
  intro s1 w w' dg src t tl o e1 hh
  have hz' : ∃ rl, s1.rl.check (normalizeIp src) s1.cfg.maxPerIp s1.cfg.maxGlobal (promptly t) = (.error .rateIp, rl) := by
    rw [e1, hz]
    exact ⟨_, Prod.ext (check_zero s1.rl (normalizeIp src) s.cfg.maxGlobal t) rfl⟩
  obtain ⟨rl, hz'⟩ := hz'
  obtain ⟨s', r, hi, hc⟩ := iteration_limited (A := A) (dg := dg) hz' w
  unfold Server.handleDatagram at hh
  simp only [bind, Act.bind, hi] at hh
  cases r with
  | error e =>
    simp only [pure, Act.pure] at hh
    obtain ⟨rfl, rfl⟩ := Prod.mk.inj hh
    exact ⟨fun srv r he => by cases he; exact hc.trans e1, rfl⟩
  | ok u =>
    simp only [pure, Act.pure] at hh
    obtain ⟨rfl, rfl⟩ := Prod.mk.inj hh
    exact ⟨fun srv r he => by cases he; exact hc.trans e1, rfl⟩

/-- **C116, what does not hold.** The server accepts configurations with which it runs and hands on nothing, ever. -/
theorem C116_accepted_but_deaf (A : Aead) (cfg : ServerCfg) (senv : StartEnv) (hord : ∀ m, (senv.order m).Perm m) (w w1 : World) (s : Server) (h : Server.create cfg senv w = (.ok s, w1))
    (hc : cfg.ips = [] ∨ cfg.maxPerIp = 0) : Deaf A s := by
  obtain ⟨e1, _, _, hwf, _⟩ := (created_of_step hord h).ok s rfl
  rcases hc with hc | hc
  · refine deaf_of_unacceptable hwf (fun s' now src dg d h1 _ _ ha => ?_)
    have := ha.dst
    rw [h1, e1, hc] at this
    cases this
  · exact deaf_of_zero (by rw [e1]; exact hc)

/-- **C116, what holds.** After a start with at least one address and a limit of at least 1, for every key that has counters left, every command, every sender and every claimed address there is a datagram that a second
later makes the server hand on exactly this. -/
theorem C116_reachable_partial (A : Aead) (hA : A.Correct) (cfg : ServerCfg) (listed : List Ip) (hips : cfg.ips = loadIps listed) (senv : StartEnv) (hord : ∀ m, (senv.order m).Perm m) (w w1 : World) (s : Server)
    (h : Server.create cfg senv w = (.ok s, w1)) (hlen : s.bl.map.length < 2 ^ 32) (hne : listed ≠ []) (hm : 1 ≤ cfg.maxPerIp) {k : List Byte} {hd : CryptoHandler} {v : U128} (hk : s.handlers.get k = some hd)
    (hv : s.bl.map.get k = some v) (hleft : v.toNat ≠ 2 ^ 128 - 1) (cmd : U64) (src : Ip) (claimed : Option Ip) (hcl : claimed ≠ some (.v6 0)) (t : Nat) (ht : SECOND ≤ t - senv.mono) (w2 : World) :
    ∃ dg env s' r w3, s.handleDatagram A dg src (promptly t) 0
        (w2.withEnv env (dg.take MSG_SIZE)) = (.ok (s', r), w3) ∧
      forwards w3.log = forwards w2.log ++ [(dg, v + 1, (CommanderData.mk cmd ((claimed.map normalizeIp).getD (normalizeIp src))).toBytes)] := by
  obtain ⟨e1, _, _, hwf, _, _, hrl, _⟩ := (created_of_step hord h).ok s rfl
  obtain ⟨es, _, _, _, huse⟩ := C24_usable_keys cfg senv hord _ _ _ h
  obtain ⟨f, _, _, hkey, hid⟩ := (huse k hd).1 hk
  have hlens : hd.id.length = 8 ∧ hd.key.length = 32 := by
    unfold keyOf at hkey
    split at hkey
    · cases hkey
    · split at hkey
      · rename_i hcr
        cases hkey
        exact ((create_ok_iff _ _).1 hcr).2
      · cases hkey
  obtain ⟨ip, listed', rfl⟩ : ∃ ip l, listed = ip :: l := by
    cases listed with
    | nil => exact absurd rfl hne
    | cons ip l => exact ⟨ip, l, rfl⟩
  have hv1 : (v + 1).toNat = v.toNat + 1 := by
    rw [BitVec.toNat_add]
    have := v.isLt
    simp
    omega
  let d : ClientData := ⟨cmd, v + 1, false, claimed, ip⟩
  obtain ⟨dg, he, _⟩ := C03_datagram_framing A hA hd hlens.1 hlens.2 (List.replicate 12 0) (by simp) d.serialize (serialize_length d)
  obtain ⟨h94, h8, hse⟩ := packet_seals hA hlens.1 hlens.2 (iv := List.replicate 12 0) (by simp) he
  refine ⟨dg, ⟨[], [some (v + 1), some 0]⟩, ?_⟩
  generalize hw0 : w2.withEnv ⟨[], [some (v + 1), some 0]⟩ (dg.take MSG_SIZE) = w0
  have hlog : forwards w2.log = forwards w0.log := by subst hw0; rfl
  have hcur : w0.cur = dg := by subst hw0; exact List.take_of_length_le (by rw [h94]; simp [MSG_SIZE])
  have hclk : w0.clock = [some (v + 1), some 0] := by subst hw0; rfl
  have hall : AllOk w0 := by subst hw0; intro c hc; cases hc
  obtain ⟨rl, hrate⟩ := check_first senv.mono cfg.maxPerIp cfg.maxGlobal t ht hm (normalizeIp src)
  have hrate' : RateOk s src (promptly t) rl := by
    unfold RateOk
    rw [hrl, e1]
    exact hrate
  have hacc : Acceptable A s (v + 1).toNat src dg { d with srcIp := readSrc d.srcIp, dstIp := normalizeIp d.dstIp } := by
    refine ⟨by omega, ⟨hd, by rw [h8, hid]; exact hk, hse⟩, ⟨v, by rw [h8, hid]; exact hv, ?_⟩, ?_, ?_, fun hs => (by cases hs)⟩
    · show v.toNat < (v + 1).toNat
      omega
    · show (v + 1).toNat ≤ _
      omega
    · rw [e1, hips]
      simp [loadIps, d]
  rcases hi : s.iteration A dg src (promptly t) w0 with ⟨o, w3⟩
  obtain ⟨ho, hf⟩ := (C15_forwards_iff_acceptable A s hwf hlen dg src _ w0 w3 o hall _ _ _ hclk hi).2 rl _ hrate' hacc
  subst ho
  have hdg : ∃ s', s.handleDatagram A dg src (promptly t) 0 w0 = (.ok (s', .ok ()), w3) := by
    unfold Server.handleDatagram
    simp only [bind, Act.bind, hi]
    exact ⟨_, rfl⟩
  obtain ⟨s', hdg⟩ := hdg
  refine ⟨s', .ok (), w3, hdg, ?_⟩
  rw [hf, hlog, hcur]
  congr 3
  cases claimed with
  | none => simp [message, d, readSrc]
  | some c =>
    have hc : c ≠ .v6 0 := fun h => hcl (by rw [h])
    simp only [message, d, readSrc, if_neg hc]
    rfl

/-- **C116, exactly.** A server that has started is deaf in three cases: no address is configured, the limit per address is 0, or all counters of all keys are used up. -/
theorem C116_deaf_iff (A : Aead) (hA : A.Correct) (cfg : ServerCfg) (listed : List Ip) (hips : cfg.ips = loadIps listed) (senv : StartEnv) (hord : ∀ m, (senv.order m).Perm m) (w w1 : World) (s : Server)
    (h : Server.create cfg senv w = (.ok s, w1)) (hlen : s.bl.map.length < 2 ^ 32) : Deaf A s ↔ listed = [] ∨ cfg.maxPerIp = 0 ∨ Exhausted s := by
  constructor
  · intro hdeaf
    refine Classical.byContradiction (fun hno => ?_)
    rw [not_or, not_or] at hno
    obtain ⟨h1, h2, h3⟩ := hno
    refine h3 (fun k hd v hk hv => Classical.byContradiction (fun hleft => ?_))
    obtain ⟨dg, env, s', r, w3, hh, hf⟩ := C116_reachable_partial A hA cfg listed hips senv hord w w1 s h hlen h1 (by omega) hk hv hleft 0 (.v4 0) none (by simp) (senv.mono + SECOND) (by omega) w1
    have := hdeaf [] w1 _ _ (.snoc (.nil _) (.packet w1 s env dg (.v4 0) _ 0 s' r w3 hh)) (by
      intro e he
      simp only [List.nil_append, List.mem_singleton] at he
      subst he
      exact ⟨⟨_, rfl⟩, fun _ _ _ h => by cases h⟩)
    rw [hf] at this
    simp at this
  · obtain ⟨e1, _, _, hwf, _⟩ := (created_of_step hord h).ok s rfl
    rintro (h1 | h1 | h1)
    · exact C116_accepted_but_deaf A cfg senv hord w w1 s h (.inl (by rw [hips, h1]; rfl))
    · exact C116_accepted_but_deaf A cfg senv hord w w1 s h (.inr h1)
    · refine deaf_of_unacceptable hwf (fun s' now src dg d _ hh hb ha => ?_)
      obtain ⟨hd, hk, _⟩ := ha.sealed
      obtain ⟨v, hv, hlt⟩ := ha.fresh
      rw [hh] at hk
      rw [hb] at hv
      have := h1 _ _ _ hk hv
      have := d.counter.isLt
      omega

/-- A config.toml without an address, and one with the limit 0. -/
def exNoAddress : Table := [("ips".toList, .arr []), ("blocklist_dir".toList, .str "/s".toList)]
def exNoRequests : Table := [("ips".toList, .arr [.str "10.0.0.2".toList]), ("blocklist_dir".toList, .str "/s".toList), ("max_requests_per_second".toList, .int 0)]

theorem deaf_witness (t : Table) (h : (match ConfigServer.deserialize t with
      | .ok c => decide (((c.running exPathEnv).ips = [] ∨ (c.running exPathEnv).maxPerIp = 0) ∧
          (Server.create (c.running exPathEnv) ⟨exDir, id, true, 0⟩ (exEmpty.withEnv ⟨[], [some 1000, some 1000, some 1000]⟩ [])).1.isOk = true)
      | .error _ => false) = true) :
    ∃ c senv w w1 s, ConfigServer.deserialize t = .ok c ∧ Server.create (c.running exPathEnv) senv w = (.ok s, w1) ∧ ∀ A, Deaf A s := by
  split at h
  · rename_i c hc
    obtain ⟨h1, h2⟩ := of_decide_eq_true h
    generalize hr : Server.create (c.running exPathEnv) ⟨exDir, id, true, 0⟩ (exEmpty.withEnv ⟨[], [some 1000, some 1000, some 1000]⟩ []) = r at h2
    obtain ⟨o, w1⟩ := r
    cases o with
    | err e => cases h2
    | crash => cases h2
    | ok s =>
    exact ⟨c, _, _, w1, s, hc, hr, fun A => C116_accepted_but_deaf A _ _ (fun m => List.Perm.refl _) _ _ _ hr h1⟩
  · cases h

/-- **C116** is false: a config.toml with `ips = []`, and one with `max_requests_per_second = 0`, are read without complaint; the server starts, and never hands on anything. -/
theorem C116_silently_deaf : (∃ c senv w w1 s, ConfigServer.deserialize exNoAddress = .ok c ∧ Server.create (c.running exPathEnv) senv w = (.ok s, w1) ∧ ∀ A, Deaf A s) ∧
    (∃ c senv w w1 s, ConfigServer.deserialize exNoRequests = .ok c ∧ Server.create (c.running exPathEnv) senv w = (.ok s, w1) ∧ ∀ A, Deaf A s) :=
  ⟨deaf_witness _ (by decide +kernel), deaf_witness _ (by decide +kernel)⟩

/-- The hypotheses of `C116_reachable_partial` and of `C116_deaf_iff`: a server started on an empty disk with one key, one address and the limit 10 has counters left, so it is not deaf. -/
example : ∃ s w1 v, Server.create { exServer.cfg with maxPerIp := 10 } ⟨exDir, id, true, 0⟩ (exEmpty.withEnv ⟨[], [some 1000, some 1000, some 1000]⟩ []) = (.ok s, w1) ∧
    s.handlers.get exKey.id = some exKey ∧ s.bl.map.get exKey.id = some v ∧ v.toNat ≠ 2 ^ 128 - 1 ∧ s.bl.map.length < 2 ^ 32 ∧ ¬ Deaf toyAead s := by
  have hc : (match Server.create { exServer.cfg with maxPerIp := 10 } ⟨exDir, id, true, 0⟩ (exEmpty.withEnv ⟨[], [some 1000, some 1000, some 1000]⟩ []) with
      | (.ok s, _) => decide (s.handlers.get exKey.id = some exKey ∧ s.bl.map.get exKey.id = some 1000 ∧ s.bl.map.length = 1)
      | _ => false) = true := by decide +kernel
  split at hc
  · rename_i s w1 hs
    obtain ⟨h1, h2, h3⟩ := of_decide_eq_true hc
    have h4 : s.bl.map.length < 2 ^ 32 := by omega
    refine ⟨s, w1, 1000, hs, h1, h2, by decide, h4, ?_⟩
    rw [C116_deaf_iff toyAead toyAead_correct _ [.v6 0xffff0a000002] rfl _ (fun m => List.Perm.refl _) _ _ _ hs h4]
    rintro (h | h | h)
    · cases h
    · cases h
    · exact absurd (h _ _ _ h1 h2) (by decide)
  · cases hc

end Ruroco
