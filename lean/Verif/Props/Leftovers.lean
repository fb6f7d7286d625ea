import Verif.Lemmas.Leftovers
import Verif.Lemmas.IpText
import Verif.Lemmas.Rate
import Verif.Props.ClientHistory
import Verif.Props.History

/-!
# C82: temporary files left behind
-/

namespace Ruroco

open Spec

theorem serverFailures_append (a b : List Ev) : serverFailures (a ++ b) = serverFailures a + serverFailures b := by
  induction a with
  | nil => simp [serverFailures]
  | cons e rest ih => cases e <;> simp only [List.cons_append, serverFailures, ih] <;> omega

theorem clientFailures_append (a b : List CEv) : clientFailures (a ++ b) = clientFailures a + clientFailures b := by
  induction a with
  | nil => simp [clientFailures]
  | cons e rest ih => cases e <;> simp only [List.cons_append, clientFailures, ih] <;> omega

/-- C82, proved part. However often the server is started, stopped and killed, and whatever it receives: it leaves behind at most one file per system call that failed or
did not return, besides the replay state; in particular none at all while nothing fails. Missing: a bound that does not grow with the number of
failures; there is none, see `C82_leftovers_grow`. A power loss may bring back a temporary file that had been renamed, so it is excluded. -/
theorem C82_server_partial (A : Aead) (dir : Path) (w : World) (evs : List Ev) (s : Sys) (h : Run A dir ⟨w, none⟩ evs s)
    (hpow : .power ∉ evs) (hoth : .others ∉ evs) :
    ∃ left : List Path, left.length ≤ serverFailures evs ∧ Leaves (fun q => q = blocklistPath dir) w s.w left := by
  have key : ∀ {s0 s : Sys} {evs : List Ev}, Run A dir s0 evs s → s0.srv = none → .power ∉ evs → .others ∉ evs →
      ∃ left : List Path, left.length ≤ serverFailures evs ∧ Leaves (fun q => q = blocklistPath dir) s0.w s.w left := by
    intro s0 s evs h h0 hpow hoth
    induction h with
    | nil => exact ⟨[], by simp, .refl _ _⟩
    | snoc hr hst ih =>
      rename_i s1 s2 evs e
      obtain ⟨left, hl, hle⟩ := ih (fun h => hpow (by simp [h])) (fun h => hoth (by simp [h]))
      have hlive := live_run_false hr (fun srv h => by rw [h0] at h; cases h)
      have step : ∃ left2 : List Path, left2.length ≤ serverFailures [e] ∧ Leaves (fun q => q = blocklistPath dir) s1.w s2.w left2 := by
        have fin : ∀ {α : Type} {m : Act α} (_ : Tidy (fun q => q = blocklistPath dir) m) {o : Out α} {w w' : World} {env : Env} {cur : List Byte},
            m (w.withEnv env cur) = (o, w') →
            ∃ left2 : List Path, left2.length ≤ failures env.oracle ∧ Leaves (fun q => q = blocklistPath dir) w w' left2 := by
          intro α m hm o w w' env cur h
          have := hm (w.withEnv env cur)
          unfold wp at this
          rw [h] at this
          obtain ⟨l, h1, h2⟩ := this
          refine ⟨l, ?_, h1⟩
          have h2 : l.length + failures w'.oracle ≤ failures env.oracle := h2
          omega
        cases hst with
        | started w env cfg senv s w' hdir hord h => exact fin (Tidy.create cfg senv (by rw [hdir])) h
        | startFailed w env cfg senv o w' hdir hord h hne => exact fin (Tidy.create cfg senv (by rw [hdir])) h
        | packet w s env dg src rd t s' r w' h => exact fin (Tidy.handleDatagram A (hlive s rfl).path dg src rd t) h
        | packetCrash w s env dg src rd t w' h => exact fin (Tidy.handleDatagram A (hlive s rfl).path dg src rd t) h
        | kill w s => exact ⟨[], by simp, .refl _ _⟩
        | power => exact absurd (by simp) hpow
        | others => exact absurd (by simp) hoth
      obtain ⟨l2, h2, h3⟩ := step
      exact ⟨left ++ l2, by rw [serverFailures_append, List.length_append]; omega, hle.trans h3⟩
  exact key h rfl hpow hoth

/-- The same for the client and its counter file and lock file. -/
theorem C82_client_partial (A : Aead) (hash : List Char → U64) (dir : Path) (w w' : World) (evs : List CEv) (h : CRun A hash dir w evs w')
    (hpow : .power ∉ evs) (hoth : .others ∉ evs) :
    ∃ left : List Path, left.length ≤ clientFailures evs ∧
      Leaves (fun q => q = counterPath dir ∨ q = dir ++ "/client.lock".toList) w w' left := by
  induction h with
  | nil => exact ⟨[], by simp, .refl _ _⟩
  | snoc hr hst ih =>
    rename_i w1 w2 evs e
    obtain ⟨left, hl, hle⟩ := ih (fun h => hpow (by simp [h])) (fun h => hoth (by simp [h]))
    have step : ∃ left2 : List Path, left2.length ≤ clientFailures [e] ∧
        Leaves (fun q => q = counterPath dir ∨ q = dir ++ "/client.lock".toList) w1 w2 left2 := by
      have fin : ∀ {m : Act Unit} (_ : Tidy (fun q => q = counterPath dir ∨ q = dir ++ "/client.lock".toList) m) {o : Out Unit} {w w' : World} {env : Env},
          m (w.withEnv env []) = (o, w') →
          ∃ left2 : List Path, left2.length ≤ failures env.oracle ∧ Leaves (fun q => q = counterPath dir ∨ q = dir ++ "/client.lock".toList) w w' left2 := by
        intro m hm o w w' env h
        have := hm (w.withEnv env [])
        unfold wp at this
        rw [h] at this
        obtain ⟨l, h1, h2⟩ := this
        refine ⟨l, ?_, h1⟩
        have h2 : l.length + failures w'.oracle ≤ failures env.oracle := h2
        omega
      cases hst with
      | send env held cmd senv o _ h => exact fin (Tidy.runSend A hash dir (.inl rfl) (.inr rfl) held cmd senv) h
      | reseed env held o _ h => exact fin (Tidy.runReseed dir (.inl rfl) (.inr rfl) held) h
      | power => exact absurd (by simp) hpow
      | others => exact absurd (by simp) hoth
    obtain ⟨l2, h2, h3⟩ := step
    exact ⟨left ++ l2, by rw [clientFailures_append, List.length_append]; omega, hle.trans h3⟩

/-! ## Leftovers grow -/

/-- Temporary names at different times are different. -/
theorem tmpPath_inj {p : Path} {a b : U128} (h : tmpPath p a = tmpPath p b) : a = b := by
  unfold tmpPath at h
  have h1 := List.append_cancel_left h
  have h2 := List.append_cancel_right (by simpa using h1 : (toString a.toNat).toList ++ ".tmp".toList = (toString b.toNat).toList ++ ".tmp".toList)
  have h3 : ∀ n : Nat, (toString n).toList = showRadix 10 n := by
    intro n
    show (Nat.repr n).toList = _
    unfold Nat.repr showRadix
    simp
  rw [h3, h3] at h2
  have h4 := congrArg (ofDigits 10) h2
  rw [ofDigits_show (by decide) (by decide), ofDigits_show (by decide) (by decide)] at h4
  exact BitVec.eq_of_toNat_eq h4

/-- `write_atomic` when the write fails. -/
theorem writeAtomic_full (p : Path) (bs : List Byte) (w : World) (t : U128) (c : List (Option U128)) (hc : w.clock = some t :: c) (ho : w.oracle = [.ok, .err 0]) :
    ∃ w', writeAtomic p bs w = (.err .io, w') ∧ w'.fs (tmpPath p t) ≠ none ∧ ∀ q, q ≠ tmpPath p t → w'.fs q = w.fs q := by
  unfold writeAtomic writeAtomicWithMode
  simp only [Bind.bind, Act.bind, nowNanos, hc, openTrunc, atomicCall, syscall, ho, writeAll]
  refine ⟨_, rfl, ?_, ?_⟩
  · simp [World.append, World.setEntry, World.setFile]
  · intro q hq
    simp [World.append, World.setEntry, World.setFile, hq]

theorem save_full (b : Blocklist) (w : World) (t : U128) (c : List (Option U128)) (henc : (encodeBl (b.order b.map)).isOk = true) (hc : w.clock = some t :: c)
    (ho : w.oracle = [.ok, .err 0]) :
    ∃ w', b.save w = (.err .io, w') ∧ w'.fs (tmpPath b.path t) ≠ none ∧ ∀ q, q ≠ tmpPath b.path t → w'.fs q = w.fs q := by
  cases he : encodeBl (b.order b.map) with
  | error e => rw [he] at henc; cases henc
  | ok bytes =>
    obtain ⟨w', h, h'⟩ := writeAtomic_full b.path bytes w t c hc ho
    refine ⟨w', ?_, h'⟩
    show Act.bind (Act.ofExcept (encodeBl (b.order b.map))) _ w = _
    rw [he]
    exact h

theorem updateBlockList_full (s : Server) (k : List Byte) (c : U128) (w w' : World) (h : (s.bl.upsert k c).save w = (.err .io, w')) :
    s.updateBlockList k c w = (.ok (s, .error .save), w') := by
  unfold Server.updateBlockList
  simp only [Bind.bind, Act.bind, Act.attempt, h]
  cases hg : s.bl.getCounter k with
  | none =>
    have : ({ s with bl := (s.bl.upsert k c).remove k } : Server) = s := by
      simp only [Blocklist.remove, Blocklist.upsert, BlMap.remove_restore c hg]
    simp only [this]
    rfl
  | some prev =>
    have : ({ s with bl := (s.bl.upsert k c).upsert k prev } : Server) = s := by
      simp only [Blocklist.upsert, BlMap.insert_restore c hg]
    simp only [this]
    rfl

/-- A request that passes all checks but can not be recorded: it is refused, nothing changes in the server, and a temporary file stays. -/
theorem refused_leaves_file (A : Aead) (s : Server) (dg : List Byte) (src : Ip) (rd : Readings) (tLog : Nat) (w : World) (now t : U128)
    (k pt : List Byte) (d : ClientData) (hlen : (dg.take MSG_SIZE).length = MSG_SIZE)
    (hrl : (s.rl.check (normalizeIp src) s.cfg.maxPerIp s.cfg.maxGlobal rd).1 = .ok ())
    (hdec : s.decryptMsg A (dg.take MSG_SIZE) = .ok (k, pt)) (hdes : ClientData.deserialize pt = .ok d)
    (h1 : s.bl.isCounterReplayed k d.counter = false) (h2 : d.counter.toNat ≤ (maxFutureCounter now s.cfg.skewSeconds).toNat)
    (h3 : s.cfg.ips.contains d.dstIp = true) (h4 : d.isSourceIpInvalid (normalizeIp src) = false)
    (henc : (encodeBl (s.bl.order (s.bl.map.insert k d.counter))).isOk = true)
    (hc : w.clock = [some now, some t]) (ho : w.oracle = [.ok, .err 0]) :
    ∃ th w', s.handleDatagram A dg src rd tLog w =
        (.ok ({ s with rl := (s.rl.check (normalizeIp src) s.cfg.maxPerIp s.cfg.maxGlobal rd).2, throttle := th }, .error .save), w') ∧
      w'.fs (tmpPath s.bl.path t) ≠ none ∧ ∀ q, q ≠ tmpPath s.bl.path t → w'.fs q = w.fs q := by
  have hv : ∃ w', Server.validateAndSend { s with rl := (s.rl.check (normalizeIp src) s.cfg.maxPerIp s.cfg.maxGlobal rd).2 } k pt (normalizeIp src) w =
      (.ok ({ s with rl := (s.rl.check (normalizeIp src) s.cfg.maxPerIp s.cfg.maxGlobal rd).2 }, .error .save), w') ∧
      w'.fs (tmpPath s.bl.path t) ≠ none ∧ ∀ q, q ≠ tmpPath s.bl.path t → w'.fs q = w.fs q := by
    obtain ⟨w', hs, hf⟩ := save_full (s.bl.upsert k d.counter) { w with clock := [some t] } t [] henc rfl ho
    refine ⟨w', ?_, hf⟩
    have hu := updateBlockList_full { s with rl := (s.rl.check (normalizeIp src) s.cfg.maxPerIp s.cfg.maxGlobal rd).2 } k d.counter _ _ hs
    unfold Server.validateAndSend
    simp only [Bind.bind, Act.bind, Act.attempt, nowNanos, hc, hdes, h1, h3, h4, if_neg (Nat.not_lt.2 h2)]
    simp only [Bool.false_eq_true, if_false, Bool.not_true, Bind.bind, Act.bind, hu]
    rfl
  obtain ⟨w', hv, hf⟩ := hv
  have hi : s.iteration A dg src rd w = (.ok ({ s with rl := (s.rl.check (normalizeIp src) s.cfg.maxPerIp s.cfg.maxGlobal rd).2 }, .error .save), w') := by
    have hdec' : Server.decryptMsg A { s with rl := (s.rl.check (normalizeIp src) s.cfg.maxPerIp s.cfg.maxGlobal rd).2 } (dg.take MSG_SIZE) = .ok (k, pt) := hdec
    unfold Server.iteration
    simp only [hlen, ne_eq, not_true_eq_false, if_false, hrl, hdec']
    exact hv
  refine ⟨(s.throttle.log tLog).2, w', ?_, hf⟩
  unfold Server.handleDatagram
  simp only [Bind.bind, Act.bind, hi]
  rfl

/-- All readings of the monotonic clock at one moment. -/
def readingsAt (t : Nat) : Readings := ⟨fun _ => t, t, t, t, t, t⟩

/-- The rate limiter admits one request per second. -/
theorem check_each_second (rl : RateLimiter) (ip : Ip) (m g T : Nat) (hm : 0 < m) (hp : ∀ e ∈ rl.perIp, e.2.start + SECOND ≤ T) (hg : rl.global.start + SECOND ≤ T) :
    rl.check ip m g (readingsAt T) = (.ok (), { perIp := [(ip, ⟨T, 1⟩)], global := ⟨T, 1⟩ }) := by
  have hd : dropOld rl.perIp (readingsAt T) = [] := by
    unfold dropOld
    rw [List.filter_eq_nil_iff]
    intro e he
    have := hp e he
    intro hlt
    have hlt : T - e.2.start < SECOND := of_decide_eq_true hlt
    omega
  have hs := second_pos
  have h1 : (⟨T, 0⟩ : Slot).bump m T T = (true, ⟨T, 1⟩) := by
    unfold Slot.bump
    simp only
    rw [if_neg (by omega), if_neg (by omega)]
  have h2 : rl.global.bump g T T = (true, ⟨T, 1⟩) := by
    unfold Slot.bump
    rw [if_pos (by omega)]
  unfold RateLimiter.check
  simp only [hd, lookupIp, Option.getD_none, setIp]
  show (if !((⟨T, 0⟩ : Slot).bump m T T).1 then _ else _) = _
  rw [show (readingsAt T).insert = T from rfl, show (readingsAt T).ipElapsed = T from rfl, show (readingsAt T).ipReset = T from rfl,
    show (readingsAt T).globalElapsed = T from rfl, show (readingsAt T).globalReset = T from rfl, h1, h2]
  rfl

/-- The request with counter 5000, delivered for the `i`-th time, while the disk is full: opening the temporary file succeeds, writing it does not. -/
def exFull (i : Nat) : Ev :=
  .packet ⟨[.ok, .err 0], [some 1100, some (BitVec.ofNat 128 (2000 + i))]⟩ (exSealed 5000) (.v4 0x0a000001) (readingsAt ((i + 1) * SECOND)) 0

/-- The server after its first start. -/
def exStarted : Sys := exec toyAead ⟨exEmpty, none⟩ (exStart 1000 [])

theorem exStarted_run : Run toyAead "/s".toList ⟨exEmpty, none⟩ [exStart 1000 []] exStarted := by
  apply run_exec [exStart 1000 []]
  exact ⟨⟨rfl, rfl⟩, trivial⟩

theorem exStarted_facts : ∃ s, exStarted.srv = some s ∧ s.rl = RateLimiter.new 0 ∧ s.cfg.maxPerIp = 10 ∧ s.bl.path = blocklistPath "/s".toList ∧
    s.decryptMsg toyAead ((exSealed 5000).take MSG_SIZE) = .ok (exKey.id, exRequest.serialize) ∧ s.bl.isCounterReplayed exKey.id 5000 = false ∧
    (5000 : U128).toNat ≤ (maxFutureCounter 1100 s.cfg.skewSeconds).toNat ∧ s.cfg.ips.contains exRequest.dstIp = true ∧
    (encodeBl (s.bl.order (s.bl.map.insert exKey.id 5000))).isOk = true := by
  have h : exStarted.srv.any (fun s => decide (s.rl = RateLimiter.new 0 ∧ s.cfg.maxPerIp = 10 ∧ s.bl.path = blocklistPath "/s".toList ∧
    s.decryptMsg toyAead ((exSealed 5000).take MSG_SIZE) = .ok (exKey.id, exRequest.serialize) ∧ s.bl.isCounterReplayed exKey.id 5000 = false ∧
    (5000 : U128).toNat ≤ (maxFutureCounter 1100 s.cfg.skewSeconds).toNat ∧ s.cfg.ips.contains exRequest.dstIp = true ∧
    (encodeBl (s.bl.order (s.bl.map.insert exKey.id 5000))).isOk = true)) = true := by decide +kernel
  cases hs : exStarted.srv with
  | none => rw [hs] at h; cases h
  | some s =>
    rw [hs] at h
    exact ⟨s, rfl, of_decide_eq_true h⟩

/-- C82 fails: for any number `n` (short of the clock's range) there is a history that leaves `n` temporary files in the state directory: one request, delivered again and
again while the disk is full. A refused request does not use up its counter, so anybody who saw it can repeat it. Starting the server again and again
does the same. Nothing ever removes the files. -/
theorem C82_leftovers_grow (n : Nat) (hn : n ≤ 2 ^ 64) :
    ∃ evs s, Run toyAead "/s".toList ⟨exEmpty, none⟩ (exStart 1000 [] :: evs) s ∧
      (∀ e ∈ evs, ∃ env rd t, e = .packet env (exSealed 5000) (.v4 0x0a000001) rd t) ∧
      ∃ left : List Path, left.length = n ∧ left.Nodup ∧ ∀ q ∈ left, s.w.fs q ≠ none ∧ q ≠ blocklistPath "/s".toList := by
  obtain ⟨s0, h0, h1, h2, h3, h4, h5, h6, h7, h8⟩ := exStarted_facts
  have key : ∀ n, ∃ evs s, Run toyAead "/s".toList ⟨exEmpty, none⟩ (exStart 1000 [] :: evs) s ∧
      (∀ e ∈ evs, ∃ env rd t, e = .packet env (exSealed 5000) (.v4 0x0a000001) rd t) ∧
      (∃ rl th, s.srv = some { s0 with rl := rl, throttle := th } ∧ (∀ e ∈ rl.perIp, e.2.start ≤ n * SECOND) ∧ rl.global.start ≤ n * SECOND) ∧
      ∀ i < n, s.w.fs (tmpPath (blocklistPath "/s".toList) (BitVec.ofNat 128 (2000 + i))) ≠ none := by
    intro n
    induction n with
    | zero =>
      refine ⟨[], exStarted, exStarted_run, nofun, ⟨s0.rl, s0.throttle, h0, ?_, ?_⟩, nofun⟩
      · rw [h1]; simp [RateLimiter.new]
      · rw [h1]; simp [RateLimiter.new]
    | succ n ih =>
      obtain ⟨evs, s, hr, he, ⟨rl, th, hs, hp, hg⟩, hf⟩ := ih
      obtain ⟨w, srv⟩ := s
      simp only at hs hf
      subst hs
      have hchk := check_each_second rl (normalizeIp (.v4 0x0a000001)) s0.cfg.maxPerIp s0.cfg.maxGlobal ((n + 1) * SECOND) (by rw [h2]; decide)
        (fun e he => by have := hp e he; rw [Nat.succ_mul]; omega) (by rw [Nat.succ_mul]; omega)
      have hdes : ClientData.deserialize exRequest.serialize = .ok exRequest := by decide +kernel
      have hsrc : exRequest.isSourceIpInvalid (normalizeIp (.v4 0x0a000001)) = false := by decide +kernel
      have hlen : ((exSealed 5000).take MSG_SIZE).length = MSG_SIZE := by decide +kernel
      obtain ⟨th', w', hd, hnew, hold⟩ := refused_leaves_file toyAead { s0 with rl := rl, throttle := th } (exSealed 5000) (.v4 0x0a000001)
        (readingsAt ((n + 1) * SECOND)) 0
        (w.withEnv ⟨[.ok, .err 0], [some 1100, some (BitVec.ofNat 128 (2000 + n))]⟩ ((exSealed 5000).take MSG_SIZE)) 1100 (BitVec.ofNat 128 (2000 + n))
        exKey.id exRequest.serialize exRequest hlen (by rw [hchk]) h4 hdes h5 h6 h7 hsrc h8 rfl rfl
      rw [hchk] at hd
      refine ⟨evs ++ [exFull n], ⟨w', _⟩, .snoc hr (.packet _ _ _ _ _ _ _ _ _ _ hd), ?_, ⟨_, th', rfl, ?_, ?_⟩, ?_⟩
      · intro e hm
        rcases List.mem_append.1 hm with hm | hm
        · exact he e hm
        · rw [List.mem_singleton] at hm
          exact ⟨_, _, _, hm⟩
      · intro e hm
        rw [List.mem_singleton] at hm
        rw [hm]
        exact Nat.le_refl _
      · exact Nat.le_refl _
      · intro i hi
        by_cases hin : i = n
        · subst hin
          rw [← h3]; exact hnew
        · by_cases hq : tmpPath (blocklistPath "/s".toList) (BitVec.ofNat 128 (2000 + i)) = tmpPath s0.bl.path (BitVec.ofNat 128 (2000 + n))
          · rw [hq]; exact hnew
          · rw [hold _ hq]
            exact hf i (by omega)
  obtain ⟨evs, s, hr, he, _, hf⟩ := key n
  refine ⟨evs, s, hr, he, (List.range n).map (fun i => tmpPath (blocklistPath "/s".toList) (BitVec.ofNat 128 (2000 + i))), by simp, ?_, ?_⟩
  · rw [List.Nodup, List.pairwise_map]
    refine List.Pairwise.imp_of_mem ?_ (List.nodup_range (n := n))
    intro a b ha hb hab heq
    rw [List.mem_range] at ha hb
    have := congrArg BitVec.toNat (tmpPath_inj heq)
    rw [BitVec.toNat_ofNat, BitVec.toNat_ofNat, Nat.mod_eq_of_lt (by omega), Nat.mod_eq_of_lt (by omega)] at this
    exact hab (by omega)
  · intro q hq
    obtain ⟨i, hi, rfl⟩ := List.mem_map.1 hq
    exact ⟨hf i (List.mem_range.1 hi), tmpPath_ne _ _⟩

/-- Non-vacuity of `C82_server_partial`: the history of `exHistory` has two failures (the process dies in one rename, one write fails) and leaves one file. -/
example : serverFailures exHistory = 2 ∧ (∀ e ∈ exHistory, e matches .start .. ∨ e matches .packet .. ∨ e matches .kill) ∧
    (exHistory.foldl (exec toyAead) ⟨exEmpty, none⟩).w.fs (tmpPath (blocklistPath "/s".toList) 3200) ≠ none := by
  decide +kernel

/-- Non-vacuity of `C82_client_partial`: a send that dies while writing and one that works; the first leaves a file. -/
example : CRun toyAead (fun _ => 7) "/c".toList (exDisk none []) [exSend 2000 [.ok, .ok, .ok, .ok, .crash 3], exSend 4000 []]
      ([exSend 2000 [.ok, .ok, .ok, .ok, .crash 3], exSend 4000 []].foldl (cexec toyAead (fun _ => 7) "/c".toList) (exDisk none [])) ∧
    clientFailures [exSend 2000 [.ok, .ok, .ok, .ok, .crash 3], exSend 4000 []] = 1 ∧
    ([exSend 2000 [.ok, .ok, .ok, .ok, .crash 3], exSend 4000 []].foldl (cexec toyAead (fun _ => 7) "/c".toList) (exDisk none [])).fs
      (tmpPath "/c/counter".toList 2000) ≠ none := by
  refine ⟨cexec_run _ _ _ _ ?_ _, ?_⟩
  · intro e he
    rcases List.mem_cons.1 he with rfl | he
    · exact ⟨_, _, _, _, rfl⟩
    · rw [List.mem_singleton] at he
      exact ⟨_, _, _, _, he⟩
  · decide +kernel

end Ruroco
