import Verif.Lemmas.Bounds
import Verif.Lemmas.Exec

/-!
# C07, C08, C10, C16, C17, C38 (server side): histories with failures, crashes, restarts and power losses

`Run A dir s evs s'` (in `Model/History`) is an arbitrary history of events `evs`. Hypotheses on the final trace:

* `hstat`: no `stat` of the replay-state file failed while it existed or not (`Path::exists` reports a failed `stat` as "absent"; what
  then happens is `C16_stat_failure_resets`);
* `hsync`: if the history contains power losses, the fsync of the directory did not fail (it is best effort, see C55).
-/

namespace Ruroco

open Spec (Acceptable Seals RateOk forwards message PowerLoss Survives onDisk Durable)

theorem pw_cases {evs : List Ev} {dir : Path} {log : List Event}
    (hsync : .power ∈ evs → .dirSyncFailed (blocklistPath dir) ∉ log) : ∃ pw, (.power ∈ evs → pw = true) ∧ (pw = true → .power ∈ evs) ∧ SyncOk pw dir log := by
  by_cases h : .power ∈ evs
  · exact ⟨true, fun _ => rfl, fun _ => h, fun _ => hsync h⟩
  · exact ⟨false, fun h' => absurd h' h, by simp, by simp [SyncOk]⟩

theorem acted_nil {log : List Event} (h : forwards log = []) : acted log = [] := by simp [acted, h]

/-- **C07.** In every history, the counters of the commands forwarded for one key (the first 8 bytes of the datagram) are strictly
increasing, over all restarts, crashes and power losses. -/
theorem C07_counters_strictly_increase (A : Aead) (dir : Path) (w : World) (evs : List Ev) (s : Sys) (h : Run A dir ⟨w, none⟩ evs s)
    (hlog : forwards w.log = []) (hstat : .statFailed (blocklistPath dir) ∉ s.w.log)
    (hsync : .power ∈ evs → .dirSyncFailed (blocklistPath dir) ∉ s.w.log) :
    (forwards s.w.log).Pairwise (fun a b => a.1.take 8 = b.1.take 8 → a.2.1.toNat < b.2.1.toNat) := by
  obtain ⟨pw, h1, _, h2⟩ := pw_cases hsync
  have hf : Floors pw dir [] ⟨w, none⟩ := by
    refine ⟨?_, ?_, by simp⟩ <;> simp [acted_nil hlog, AtLeast, Increasing]
  have := (h.floors (by simp) hf h1 h2 hstat).inc
  unfold Increasing acted at this
  rw [List.pairwise_map] at this
  exact this

/-- **C08.** At every moment of every history (in particular right after a forward, or after the process died or the power was lost right
after it): the replay-state file contains, for each command forwarded so far, a counter of that key at least as large. -/
theorem C08_persisted_before_forward (A : Aead) (dir : Path) (w : World) (evs : List Ev) (s : Sys) (h : Run A dir ⟨w, none⟩ evs s)
    (hlog : forwards w.log = []) (hstat : .statFailed (blocklistPath dir) ∉ s.w.log)
    (hsync : .power ∈ evs → .dirSyncFailed (blocklistPath dir) ∉ s.w.log) :
    ∀ dg c bs, (dg, c, bs) ∈ forwards s.w.log → ∃ v, onDisk s.w (blocklistPath dir) (dg.take 8) = some v ∧ c.toNat ≤ v.toNat := by
  obtain ⟨pw, h1, _, h2⟩ := pw_cases hsync
  have hf : Floors pw dir [] ⟨w, none⟩ := by
    refine ⟨?_, ?_, by simp⟩ <;> simp [acted_nil hlog, AtLeast, Increasing]
  intro dg c bs hm
  obtain ⟨file, m, v, e1, _, e3, e4, e5⟩ := (h.floors (by simp) hf h1 h2 hstat).floor (s.w.fs (blocklistPath dir)) (by simp [cands])
    (dg.take 8, c) (by simp only [List.nil_append, acted, List.mem_map]; exact ⟨_, hm, rfl⟩)
  exact ⟨v, by simp [onDisk, e1, e3, e4], e5⟩

/-- **C10a.** A request from further in the future than the configured skew, by the clock reading taken, is not acted on and changes
nothing; the comparison is on unbounded numbers, so no skew setting makes it wrap around. -/
theorem C10_future_refused (A : Aead) (s : Server) (hb : s.bl.Wf) (dg : List Byte) (src : Ip) (rd : Readings) (w w' : World)
    (o : Out (Server × Except Err Unit)) (h : s.iteration A dg src rd w = (o, w')) (now : U128) (c : List (Option U128))
    (hc : w.clock = some now :: c)
    (hfut : ∀ k d, s.handlers.get (dg.take 8) = some k → Seals A k.key dg d →
      now.toNat + s.cfg.skewSeconds.toNat * 1000000000 < d.counter.toNat) :
    forwards w'.log = forwards w.log ∧ w'.fs = w.fs ∧ ∃ s' e, o = .ok (s', .error e) ∧ s'.bl = s.bl := by
  have hh := iteration_handled A s hb dg src rd w
  unfold wp at hh
  rw [h] at hh
  simp only at hh
  have no : ∀ {rl now' c' d}, ¬ ActsWith A s dg src rd w rl now' c' d := by
    intro rl now' c' d ha
    have h1 := ha.clock
    rw [hc] at h1; cases h1
    obtain ⟨k, h1, h2⟩ := ha.acc.sealed
    have := hfut k d h1 h2
    have := ha.acc.notFuture
    omega
  cases hh with
  | rejected e rl c => exact ⟨rfl, rfl, _, _, rfl, rfl⟩
  | saveFailed rl now c d e w' ha hs => exact absurd ha no
  | saveCrashed rl now c d w' ha hs => exact absurd ha no
  | acted rl now c d w1 w' ha hs hf => exact absurd ha no
  | sendCrashed rl now c d w1 w' ha hs hf => exact absurd ha no

/-- **C10b.** In every history: if `B` bounds the counters initially on disk, the clock readings of the starts, and the clock readings
of the packets plus the largest configured skew `S`, then at every moment no counter on disk and no counter acted on exceeds `B`. -/
theorem C10_counters_bounded (A : Aead) (dir : Path) (w : World) (evs : List Ev) (s : Sys) (h : Run A dir ⟨w, none⟩ evs s)
    (hlog : forwards w.log = []) (B S : Nat) (hinit : ∀ k v, onDisk w (blocklistPath dir) k = some v → v.toNat ≤ B)
    (hdur : .power ∈ evs → Durable w (blocklistPath dir))
    (hstart : ∀ env cfg senv, .start env cfg senv ∈ evs → (∀ t, some t ∈ env.clock → t.toNat ≤ B) ∧ cfg.skewSeconds.toNat ≤ S)
    (hpacket : ∀ env dg src rd tl, .packet env dg src rd tl ∈ evs → ∀ t, some t ∈ env.clock → t.toNat + S * 1000000000 ≤ B) :
    (∀ k v, onDisk s.w (blocklistPath dir) k = some v → v.toNat ≤ B) ∧ ∀ dg c bs, (dg, c, bs) ∈ forwards s.w.log → c.toNat ≤ B := by
  have hp : ∃ pw, (.power ∈ evs → pw = true) ∧ (pw = true → .power ∈ evs) := by
    by_cases h : .power ∈ evs
    · exact ⟨true, fun _ => rfl, fun _ => h⟩
    · exact ⟨false, fun h' => absurd h' h, by simp⟩
  obtain ⟨pw, h1, h2⟩ := hp
  have hf : Below pw dir B S ⟨w, none⟩ := by
    refine ⟨?_, by simp, by simp [acted_nil hlog]⟩
    intro f hf
    have : f = w.fs (blocklistPath dir) := by
      cases pw with
      | false => simpa [cands] using hf
      | true => simpa [cands, (hdur (h2 rfl)).1] using hf
    subst this
    intro file hfile
    refine ⟨fun hpw => (hdur (h2 hpw)).2 file hfile, fun m k v hd hv => hinit k v ?_⟩
    simp [onDisk, hfile, hd, hv]
  have := run_below h (by simp) hf h1 (by
    intro e he
    cases e with
    | start env cfg senv => exact hstart env cfg senv he
    | packet env dg src rd t => exact hpacket env dg src rd t he
    | kill => trivial
    | power => trivial
    | others => trivial)
  constructor
  · intro k v hv
    unfold onDisk at hv
    split at hv
    · cases hv
    · rename_i f hfile
      cases hd : decodeBl f.data with
      | none => rw [hd] at hv; simp at hv
      | some m =>
        rw [hd] at hv
        exact (this.disk _ (by simp [cands]) f hfile).2 m k v hd (by simpa using hv)
  · intro dg c bs hm
    exact this.acted (dg.take 8, c) (by simp only [acted, List.mem_map]; exact ⟨_, hm, rfl⟩)

/-! ## C16: restarts -/

theorem onDisk_eq {w w' : World} {p : Path} (h : w'.fs p = w.fs p) (k : List Byte) : onDisk w' p k = onDisk w p k := by
  simp [onDisk, h]

theorem taken_get {w w' : World} {P : Path} {m : BlMap} (h : Taken w w' P m) (hstat : .statFailed P ∉ w'.log) (k : List Byte) :
    onDisk w P k = m.get k := by
  rcases h with (⟨h1, rfl⟩ | ⟨f, h1, h2⟩) | ⟨_, h1⟩
  · simp [onDisk, h1, BlMap.get]
  · simp [onDisk, h1, h2]
  · exact absurd h1 hstat

/-- **C16a (partial).** One start, with any outcome (success, failure of any call, crash at any point): (1) no stored counter changes;
(2) if the start succeeds, the server knows every stored counter, every usable key without one gets the current time (a clock reading of
this start) on disk and in memory; (3) a file that can not be parsed makes the start fail and stays as it is. Missing: the case that
`stat` of the file fails, for which (1) and (2) are false, see `C16_stat_failure_resets`. -/
theorem C16_start_preserves_counters_partial (cfg : ServerCfg) (senv : StartEnv) (hord : ∀ m, (senv.order m).Perm m) (w w' : World) (o : Out Server)
    (h : Server.create cfg senv w = (o, w')) (hstat : .statFailed (blocklistPath cfg.blDir) ∉ w'.log) :
    (∀ k v, onDisk w (blocklistPath cfg.blDir) k = some v → onDisk w' (blocklistPath cfg.blDir) k = some v) ∧
    (∀ s, o = .ok s →
      (∀ k v, onDisk w (blocklistPath cfg.blDir) k = some v → s.bl.map.get k = some v) ∧
      (∃ floor, some floor ∈ w.clock ∧ ∀ id ∈ s.handlers.map Prod.fst, onDisk w (blocklistPath cfg.blDir) id = none →
        s.bl.map.get id = some floor ∧ onDisk w' (blocklistPath cfg.blDir) id = some floor)) ∧
    (∀ f, w.fs (blocklistPath cfg.blDir) = some f → decodeBl f.data = none →
      (∀ s, o ≠ .ok s) ∧ w'.fs (blocklistPath cfg.blDir) = some f) := by
  have hc := created_of_step hord h
  refine ⟨?_, ?_, ?_⟩
  · intro k v hk
    have := hc.keeps false (fun f => ∀ g, f = g → (match g with | none => none | some f => (decodeBl f.data).bind (·.get k)) = some v)
      (by
        intro f hf g hg
        simp [cands] at hf; subst hf; subst hg
        exact hk)
      (by
        intro m m' keys floor f ht hs _ hd _ g hg
        subst hg
        obtain ⟨file, m'', h1, _, h3, h4⟩ := hd
        rw [h1]
        simp only [h3, Option.bind_some, h4, hs.get]
        rw [← taken_get ht hstat, hk]; rfl)
      (w'.fs (blocklistPath cfg.blDir)) (by simp [cands]) _ rfl
    exact this
  · rintro s rfl
    obtain ⟨_, _, h3, _, h5, _, _, _, m, floor, ht, hfl, hs⟩ := hc.ok s rfl
    rw [h3] at ht h5
    refine ⟨?_, floor, hfl, ?_⟩
    · intro k v hk
      rw [hs.get, ← taken_get ht hstat, hk]; rfl
    · intro id hid hk
      have hg : s.bl.map.get id = some floor := by
        rw [hs.get, ← taken_get ht hstat, hk, if_pos hid]; rfl
      exact ⟨hg, by rw [onDisk_of_holds h5, hg]⟩
  · intro f hf hd
    obtain ⟨h1, h2, _⟩ := hc.unparsable f hf hd hstat
    exact ⟨h1, by rw [h2, hf]⟩

/-- **C16b (partial).** Over any history (restarts with changing key sets, crashes, packets, power losses) the stored counter of a key never
decreases and never disappears. Missing: as above. -/
theorem C16_counters_never_decrease_partial (A : Aead) (dir : Path) (w : World) (evs : List Ev) (s : Sys) (h : Run A dir ⟨w, none⟩ evs s)
    (hlog : forwards w.log = []) (hdur : .power ∈ evs → Durable w (blocklistPath dir))
    (hstat : .statFailed (blocklistPath dir) ∉ s.w.log) (hsync : .power ∈ evs → .dirSyncFailed (blocklistPath dir) ∉ s.w.log)
    (k : List Byte) (v : U128) (hv : onDisk w (blocklistPath dir) k = some v) :
    ∃ v', onDisk s.w (blocklistPath dir) k = some v' ∧ v.toNat ≤ v'.toNat := by
  obtain ⟨pw, h1, h1', h2⟩ := pw_cases hsync
  have hf : Floors pw dir [(k, v)] ⟨w, none⟩ := by
    refine ⟨?_, by simp [acted_nil hlog, Increasing], by simp [acted_nil hlog]⟩
    intro f hf
    have : f = w.fs (blocklistPath dir) := by
      cases pw with
      | false => simpa [cands] using hf
      | true => simpa [cands, (hdur (h1' rfl)).1] using hf
    subst this
    simp only [acted_nil hlog, List.append_nil]
    intro x hx
    simp at hx; subst hx
    unfold onDisk at hv
    split at hv
    · cases hv
    · rename_i f hfile
      cases hd : decodeBl f.data with
      | none => rw [hd] at hv; simp at hv
      | some m =>
        rw [hd] at hv
        exact ⟨f, m, v, hfile, fun hpw => (hdur (h1' hpw)).2 f hfile, hd, by simpa using hv, Nat.le_refl _⟩
  obtain ⟨file, m, v', e1, _, e3, e4, e5⟩ := (h.floors (by simp) hf h1 h2 hstat).floor (s.w.fs (blocklistPath dir)) (by simp [cands]) (k, v) (by simp)
  exact ⟨v', by simp [onDisk, e1, e3, e4], e5⟩

/-- **C17 (partial).** After a start at which a key had no stored counter, nothing at or below the time of that start (a clock reading taken by
it) is ever forwarded for the key, through all later restarts. Missing: keys that already had a stored counter, for which the documented
statement is false, see `C17_older_than_start_accepted`. -/
theorem C17_new_key_floor_partial (A : Aead) (cfg : ServerCfg) (senv : StartEnv) (hord : ∀ m, (senv.order m).Perm m) (w w1 : World) (srv : Server)
    (hstart : Server.create cfg senv w = (.ok srv, w1)) (hlog : forwards w1.log = [])
    (evs : List Ev) (s : Sys) (h : Run A cfg.blDir ⟨w1, some srv⟩ evs s)
    (hstat : .statFailed (blocklistPath cfg.blDir) ∉ s.w.log) (hsync : .power ∈ evs → .dirSyncFailed (blocklistPath cfg.blDir) ∉ s.w.log)
    (k : List Byte) (hk : k ∈ srv.handlers.map Prod.fst) (hnew : onDisk w (blocklistPath cfg.blDir) k = none) :
    ∃ start, some start ∈ w.clock ∧ ∀ dg c bs, (dg, c, bs) ∈ forwards s.w.log → dg.take 8 = k → start.toNat < c.toNat := by
  have hc := created_of_step hord hstart
  obtain ⟨pw, h1, _, h2⟩ := pw_cases hsync
  have hgrow : ∃ l, s.w.log = w1.log ++ l := h.log_grows (fun x hx => by
    cases hx; exact Live.started hc (syncOk_false _ _))
  obtain ⟨l, hl⟩ := hgrow
  have hstat1 : .statFailed (blocklistPath cfg.blDir) ∉ w1.log := fun hm => hstat (by rw [hl]; exact List.mem_append_left _ hm)
  have hsync1 : SyncOk pw cfg.blDir w1.log := by rw [hl] at h2; exact h2.mono
  have hlive : Live pw cfg.blDir w1 srv := Live.started hc hsync1
  obtain ⟨_, hx, _⟩ := C16_start_preserves_counters_partial cfg senv hord w w1 _ hstart hstat1
  obtain ⟨_, floor, hfl, hall⟩ := hx srv rfl
  obtain ⟨hm, _⟩ := hall k hk hnew
  have hf : Floors pw cfg.blDir [(k, floor)] ⟨w1, some srv⟩ := by
    refine ⟨?_, by simp [acted_nil hlog, Increasing], by simp [acted_nil hlog]⟩
    intro f hf
    have : f = w1.fs (blocklistPath cfg.blDir) := by
      cases pw with
      | false => simpa [cands] using hf
      | true => simpa [cands, hlive.pend rfl] using hf
    subst this
    apply AtLeast.of_holds hlive.holds
    intro x hx
    simp [acted_nil hlog] at hx; subst hx
    exact ⟨floor, hm, Nat.le_refl _⟩
  have := (h.floors (fun x hx => by cases hx; exact hlive) hf h1 h2 hstat).above (k, floor) (by simp)
  refine ⟨floor, hfl, ?_⟩
  intro dg c bs hmem hdg
  exact this (dg.take 8, c) (by simp only [acted, List.mem_map]; exact ⟨_, hmem, rfl⟩) hdg.symm

/-! ## C38, server side -/

/-- **C38a.** Let `K` be the key table all starts load their keys from. In every history, with an adversary choosing every datagram: each
forwarded command stems from a delivered datagram that is sealed under the key it names (so, for an unforgeable cipher, was produced by a
holder of that key), carries that request's counter and message, and no datagram is forwarded twice. -/
theorem C38_forwards_genuine_and_distinct (A : Aead) (dir : Path) (K : List Byte → Option (List Byte)) (w : World) (evs : List Ev) (s : Sys)
    (h : Run A dir ⟨w, none⟩ evs s) (hlog : forwards w.log = []) (hstat : .statFailed (blocklistPath dir) ∉ s.w.log)
    (hsync : .power ∈ evs → .dirSyncFailed (blocklistPath dir) ∉ s.w.log)
    (hK : ∀ env cfg senv, .start env cfg senv ∈ evs → ∀ hs, createCryptoHandlers senv.dir = .ok hs → ∀ id k, hs.get id = some k → K id = some k.key) :
    (∀ dg c bs, (dg, c, bs) ∈ forwards s.w.log →
      ∃ env full src rd t key d n, .packet env full src rd t ∈ evs ∧ dg = full.take 94 ∧ dg.length = 94 ∧ K (dg.take 8) = some key ∧
        Seals A key dg d ∧ c = d.counter ∧ bs = (message d (normalizeIp src)).take n) ∧
    ((forwards s.w.log).map (fun x => x.1)).Nodup := by
  have hg := (run_genuine (K := K) h rfl hlog (by
    intro e he
    cases e with
    | start env cfg senv => exact hK env cfg senv he
    | packet => trivial
    | kill => trivial
    | power => trivial
    | others => trivial)).2
  constructor
  · intro dg c bs hm
    obtain ⟨env, full, src, rd, t, key, d, n, h1, h2, h3, h4, h5, h6, h7⟩ := hg _ hm
    exact ⟨env, full, src, rd, t, key, d, n, h1, h3, by simp only at h3; rw [h3, List.length_take]; omega, h4, h5, h6, h7⟩
  · have hinc := C07_counters_strictly_increase A dir w evs s h hlog hstat hsync
    unfold List.Nodup
    rw [List.pairwise_map]
    refine List.Pairwise.imp_of_mem ?_ hinc
    intro a b ha hb hab heq
    have hlt := hab (by rw [heq])
    obtain ⟨_, _, _, _, _, key, d, _, _, _, _, k1, s1, c1, _⟩ := hg a ha
    obtain ⟨_, _, _, _, _, key', d', _, _, _, _, k2, s2, c2, _⟩ := hg b hb
    rw [heq, k2] at k1; cases k1
    rw [heq] at s1
    have : d = d' := by
      obtain ⟨p, p1, _, p3⟩ := s1
      obtain ⟨q, q1, _, q3⟩ := s2
      rw [p1] at q1; cases q1
      rw [p3] at q3; cases q3; rfl
    rw [c1, c2, this] at hlt
    exact Nat.lt_irrefl _ hlt

/-! ## Concrete histories -/

def exKeyText : List Char := match genKey (some exKey.key) (some exKey.id) with
  | .ok t => t
  | .error _ => []

def exDir : Option (List DirEntry) := some [⟨"a.key".toList, true, some ('\n' :: exKeyText)⟩, ⟨"readme".toList, true, none⟩]

/-- An empty disk. -/
def exEmpty : World := { fs := fun _ => none, pend := fun _ => [], clock := [], oracle := [], umask := 0o022, cur := [], log := [] }

def exStart (t : U128) (oracle : List Choice) : Ev := .start ⟨oracle, [some t, some t, some t]⟩ { exServer.cfg with maxPerIp := 10 } ⟨exDir, id, true, 0⟩

/-- A datagram with counter `c` sealed under the key of `exDir`. -/
def exSealed (c : U128) : List Byte :=
  exKey.id ++ List.replicate 12 3 ++ (toyAead.enc exKey.key (List.replicate 12 3) { exRequest with counter := c }.serialize).1 ++
    { exRequest with counter := c }.serialize

def exPacket (c now : U128) (oracle : List Choice) : Ev :=
  .packet ⟨oracle, [some now, some now]⟩ (exSealed c) (.v4 0x0a000001) exReadings 0

/-- Start, packet, replay, kill, restart, replay, packet whose save dies in the middle of the rename, restart, replay of that one, a newer
one whose save fails, and the same again. -/
def exHistory : List Ev :=
  [exStart 1000 [], exPacket 5000 1100 [], exPacket 5000 1100 [], .kill, exStart 2000 [], exPacket 5000 2100 [],
   exPacket 6000 2200 [.ok, .ok, .ok, .crash 1], exStart 3000 [], exPacket 6000 3100 [], exPacket 7000 3200 [.ok, .err 2], exPacket 7000 3300 []]

theorem exHistory_run : Run toyAead "/s".toList ⟨exEmpty, none⟩ exHistory (exHistory.foldl (exec toyAead) ⟨exEmpty, none⟩) := by
  apply run_exec
  refine ⟨⟨rfl, rfl⟩, ?_, ?_, trivial, ⟨?_, ?_⟩, ?_, ?_, ⟨?_, ?_⟩, ?_, ?_, ?_, trivial⟩ <;> first | rfl | decide +kernel

/-- Non-vacuity of C07, C08, C10, C16, C38: in this history 5000 and 7000 are forwarded once each (the packet whose processing died
is lost, not repeated), and the hypotheses on the trace hold. -/
theorem exHistory_forwards :
    (forwards (exHistory.foldl (exec toyAead) ⟨exEmpty, none⟩).w.log).map (fun x => x.2.1) = [5000, 7000] ∧
    .statFailed (blocklistPath "/s".toList) ∉ (exHistory.foldl (exec toyAead) ⟨exEmpty, none⟩).w.log ∧
    onDisk (exHistory.foldl (exec toyAead) ⟨exEmpty, none⟩).w (blocklistPath "/s".toList) exKey.id = some 7000 := by
  decide +kernel

example : (forwards (exHistory.foldl (exec toyAead) ⟨exEmpty, none⟩).w.log).Pairwise
    (fun a b => a.1.take 8 = b.1.take 8 → a.2.1.toNat < b.2.1.toNat) :=
  C07_counters_strictly_increase toyAead _ _ _ _ exHistory_run rfl exHistory_forwards.2.1
    (by intro h; simp [exHistory, exStart, exPacket] at h)

/-- **C16 is false if `stat` fails**: the replay-state file exists, but its `stat` fails during a restart (say, an I/O error). The server then
starts with an empty replay state instead of refusing to start, overwrites the file, and acts on a datagram it had acted on before. -/
theorem C16_stat_failure_resets :
    ∃ (evs : List Ev) (s : Sys), Run toyAead "/s".toList ⟨exEmpty, none⟩ evs s ∧ (∀ e ∈ evs, e ≠ .power) ∧
      ∃ dg c bs bs', forwards s.w.log = [(dg, c, bs), (dg, c, bs')] := by
  refine ⟨[exStart 1000 [], exPacket 5000 1100 [], .kill, exStart 2000 [.err 0], exPacket 5000 2100 []], _, run_exec _ _ ?_, ?_, ?_⟩
  · refine ⟨⟨rfl, rfl⟩, ?_, trivial, ⟨?_, ?_⟩, ?_, trivial⟩ <;> first | rfl | decide +kernel
  · intro e he
    simp [exStart, exPacket] at he
    rcases he with rfl | rfl | rfl | rfl | rfl <;> simp
  · refine ⟨exSealed 5000, 5000, message exRequest (.v4 0x0a000001), message exRequest (.v4 0x0a000001), ?_⟩
    decide +kernel

/-- **C17 is false for keys with a stored counter**: a server restarted at time 9000 acts on a packet with counter 5000 (contrary to the
documentation, stored counters are not raised to the time of the start). -/
theorem C17_older_than_start_accepted :
    ∃ (s1 s2 s3 : Sys) (evs : List Ev) (env : Env) (cfg : ServerCfg) (senv : StartEnv) (p : Ev) (dg bs : List Byte),
      Run toyAead "/s".toList ⟨exEmpty, none⟩ evs s1 ∧ Step toyAead "/s".toList s1 (.start env cfg senv) s2 ∧
      (∀ t ∈ env.clock, t = some 9000) ∧ forwards s2.w.log = [] ∧
      Step toyAead "/s".toList s2 p s3 ∧ forwards s3.w.log = [(dg, 5000, bs)] := by
  let s1 : Sys := [exStart 1000 [], .kill].foldl (exec toyAead) ⟨exEmpty, none⟩
  let s2 : Sys := exec toyAead s1 (exStart 9000 [])
  let s3 : Sys := exec toyAead s2 (exPacket 5000 9100 [])
  refine ⟨s1, s2, s3, _, _, _, _, exPacket 5000 9100 [], exSealed 5000, message exRequest (.v4 0x0a000001),
    run_exec [exStart 1000 [], .kill] _ ⟨⟨rfl, rfl⟩, trivial, trivial⟩, step_exec (e := exStart 9000 []) ⟨rfl, rfl⟩, by simp, ?_, step_exec ?_, ?_⟩
  · decide +kernel
  · show Out.isErr _ = false
    decide +kernel
  · decide +kernel

end Ruroco
