import Verif.Props.TwoServers
import Verif.Props.FsExact

/-!
# C57, exactly: what a second start does to the stored counters

The running server may do anything between the read and the writes of the second start: the worlds are unrelated.
-/

namespace Ruroco

open Spec (onDisk)

/-- What `Blocklist::create` holds in memory after the read. -/
theorem createRead_ok {cfg : ServerCfg} {senv : StartEnv} (hord : ∀ m, (senv.order m).Perm m) {w w1 : World} {srvB : Handlers × Blocklist}
    (h : Server.createRead cfg senv w = (.ok srvB, w1)) :
    createCryptoHandlers senv.dir = .ok srvB.1 ∧ srvB.2.path = blocklistPath cfg.blDir ∧ srvB.2.Wf ∧
      (.statFailed (blocklistPath cfg.blDir) ∉ w1.log → ∀ k, srvB.2.map.get k = onDisk w (blocklistPath cfg.blDir) k) := by
  unfold Server.createRead at h
  obtain ⟨hs, w2, h1, h'⟩ := ok_bind h
  have hk := wp_of_eq (Q := fun o v => o = .ok hs → createCryptoHandlers senv.dir = .ok hs ∧ v = w) h1
    (by rw [wp_ofExcept]; split <;> (intro e; cases e); rename_i e; exact ⟨e, rfl⟩) rfl
  obtain ⟨hk, rfl⟩ := hk
  obtain ⟨bl, w3, h2, h⟩ := ok_bind (m := Blocklist.load cfg.blDir senv.order) (f := fun bl => pure (hs, bl)) h'
  have h : ((Out.ok (hs, bl), w3) : Out (Handlers × Blocklist) × World) = (.ok srvB, w1) := h
  cases h
  refine ⟨hk, ?_⟩
  clear h1
  refine wp_of_eq (Q := fun o v => o = .ok bl → bl.path = blocklistPath cfg.blDir ∧ bl.Wf ∧ (.statFailed (blocklistPath cfg.blDir) ∉ v.log → ∀ k, bl.map.get k = onDisk w2 (blocklistPath cfg.blDir) k)) h2 ?_ rfl
  unfold Blocklist.load
  generalize blocklistPath cfg.blDir = P
  have empty : Blocklist.Wf ⟨[], P, senv.order⟩ := ⟨⟨by simp [BlMap.Nodup], by simp⟩, hord⟩
  unfold pathExists
  rw [wp_bind, wp_bind, wp_attempt]
  apply wp_atomicCall
  · intro o
    simp only [id]
    rw [wp_bind, wp_peek]
    simp only [wp_pure]
    cases hf : w2.fs P with
    | none =>
      simp only [Option.isSome_none, Bool.false_eq_true, if_false, wp_pure]
      intro e
      cases e
      exact ⟨rfl, empty, fun _ k => by simp [onDisk, hf, BlMap.get]⟩
    | some f =>
      simp only [Option.isSome_some, if_true]
      unfold readFile
      rw [wp_bind, wp_bind]
      apply wp_atomicCall
      · intro o2
        simp only [id]
        rw [wp_bind, wp_peek]
        simp only [hf, wp_pure]
        cases hd : decodeBl f.data with
        | none => simp only [wp_throw]; exact nofun
        | some m =>
          simp only [wp_pure]
          intro e
          cases e
          exact ⟨rfl, ⟨Taken.wf (w := w2) (w' := w2) (P := P) (Or.inl (Or.inr ⟨f, hf, hd⟩)), hord⟩, fun _ k => by simp [onDisk, hf, hd]⟩
      · exact fun o => nofun
      · exact fun o => nofun
      · exact fun o => nofun
  · intro o
    simp only
    rw [wp_bind, wp_note]
    simp only [wp_pure, Bool.false_eq_true, if_false]
    intro e
    cases e
    exact ⟨rfl, empty, fun hn => absurd (by simp) hn⟩
  · exact fun o => nofun
  · exact fun o => nofun

theorem createRead_inv {cfg : ServerCfg} {senv : StartEnv} {w w1 : World} {srvB : Handlers × Blocklist} (h : Server.createRead cfg senv w = (.ok srvB, w1)) :
    Blocklist.load cfg.blDir senv.order w = (.ok srvB.2, w1) := by
  unfold Server.createRead at h
  obtain ⟨hs, w2, h1, h'⟩ := ok_bind h
  have hk := wp_of_eq (Q := fun o v => o = .ok hs → v = w) h1 (by rw [wp_ofExcept]; split <;> (intro e; cases e); rfl) rfl
  subst hk
  obtain ⟨bl, w3, h2, h⟩ := ok_bind (m := Blocklist.load cfg.blDir senv.order) (f := fun bl => pure (hs, bl)) h'
  have h : ((Out.ok (hs, bl), w3) : Out (Handlers × Blocklist) × World) = (.ok srvB, w1) := h
  cases h
  exact h2

theorem createRead_clock {cfg : ServerCfg} {senv : StartEnv} {w w1 : World} {srvB : Handlers × Blocklist} (h : Server.createRead cfg senv w = (.ok srvB, w1)) : w1.clock = w.clock := by
  refine wp_of_eq (Q := fun _ v => v.clock = w.clock) (createRead_inv h) ?_
  unfold Blocklist.load pathExists
  rw [wp_bind, wp_bind, wp_attempt]
  apply wp_atomicCall
  · intro o
    simp only [id]
    rw [wp_bind, wp_peek]
    simp only [wp_pure]
    split
    · unfold readFile
      rw [wp_bind, wp_bind]
      apply wp_atomicCall
      · intro o2
        simp only [id]
        rw [wp_bind, wp_peek]
        simp only
        cases w.fs (blocklistPath cfg.blDir) with
        | none => rfl
        | some f =>
          simp only [wp_pure]
          split
          · rfl
          · rfl
      · exact fun o => rfl
      · exact fun o => rfl
      · exact fun o => rfl
    · rfl
  · intro o
    simp only
    rw [wp_bind, wp_note]
    rfl
  · exact fun o => rfl
  · exact fun o => rfl

/-- What is held in memory if the `stat` did not fail. -/
theorem createRead_map {cfg : ServerCfg} {senv : StartEnv} {w w1 : World} {srvB : Handlers × Blocklist} (h : Server.createRead cfg senv w = (.ok srvB, w1))
    (ho : ∀ n rest, w.oracle ≠ .err n :: rest) (k : List Byte) : srvB.2.map.get k = onDisk w (blocklistPath cfg.blDir) k := by
  have h := createRead_inv h
  generalize srvB.2 = bl at *
  unfold Blocklist.load at h
  obtain ⟨b, w2, h1, h2⟩ := ok_bind h
  have hb : b = (w.fs (blocklistPath cfg.blDir)).isSome ∧ w2.fs = w.fs := by
    unfold pathExists at h1
    obtain ⟨r, w3, h3, h4⟩ := ok_bind h1
    have hr : r = .ok () ∧ w3.fs = w.fs := by
      unfold Act.attempt atomicCall syscall at h3
      rcases hor : w.oracle with _ | ⟨c, rest⟩
      · simp only [hor] at h3
        cases h3
        exact ⟨rfl, rfl⟩
      · cases c with
        | ok =>
          simp only [hor] at h3
          cases h3
          exact ⟨rfl, rfl⟩
        | err n => exact absurd hor (ho n rest)
        | crash n =>
          simp only [hor] at h3
          cases h3
    obtain ⟨rfl, hr⟩ := hr
    obtain ⟨f, w4, h5, h6⟩ := ok_bind h4
    cases h5
    cases h6
    exact ⟨by rw [hr], hr⟩
  obtain ⟨rfl, hfs⟩ := hb
  cases hf : w.fs (blocklistPath cfg.blDir) with
  | none =>
    rw [hf] at h2
    cases h2
    simp [onDisk, hf, BlMap.get]
  | some f =>
    rw [hf] at h2
    obtain ⟨bytes, w3, h3, h4⟩ := ok_bind (m := readFile (blocklistPath cfg.blDir)) h2
    have hbytes : bytes = f.data := by
      refine wp_of_eq (Q := fun o _ => o = .ok bytes → bytes = f.data) h3 ?_ rfl
      unfold readFile
      rw [wp_bind]
      apply wp_atomicCall
      · intro o2
        simp only [id]
        rw [wp_bind, wp_peek]
        simp only [hfs, hf, wp_pure]
        intro e
        cases e
        rfl
      · exact fun o => nofun
      · exact fun o => nofun
      · exact fun o => nofun
    subst hbytes
    cases hd : decodeBl f.data with
    | none =>
      simp only [hd] at h4
      cases h4
    | some m =>
      simp only [hd] at h4
      cases h4
      simp [onDisk, hf, hd]

/-- What the second half of a start does to the file. -/
theorem createWrite_map (cfg : ServerCfg) (senv : StartEnv) (hs : Handlers) (bl : Blocklist) (hp : bl.path = blocklistPath cfg.blDir) (hwf : bl.Wf) (hgood : GoodHandlers hs) (w2 w3 : World)
    (o : Out Server) (h2 : Server.createWrite cfg senv hs bl w2 = (o, w3)) :
    (w3.fs (blocklistPath cfg.blDir) = w2.fs (blocklistPath cfg.blDir) ∧ ∀ s, o ≠ .ok s) ∨
    ∃ keys t, (∀ k, onDisk w3 (blocklistPath cfg.blDir) k = (bl.map.get k).or (if k ∈ keys then some t else none)) ∧
      (keys = [] ∨ (keys = hs.map Prod.fst ∧ some t ∈ w2.clock)) ∧ (∀ s, o = .ok s → keys = hs.map Prod.fst) := by
  refine wp_of_eq (Q := fun o w3 => (w3.fs (blocklistPath cfg.blDir) = w2.fs (blocklistPath cfg.blDir) ∧ ∀ s, o ≠ .ok s) ∨
    ∃ keys t, (∀ k, onDisk w3 (blocklistPath cfg.blDir) k = (bl.map.get k).or (if k ∈ keys then some t else none)) ∧
      (keys = [] ∨ (keys = hs.map Prod.fst ∧ some t ∈ w2.clock)) ∧ (∀ s, o = .ok s → keys = hs.map Prod.fst)) h2 ?_
  unfold Server.createWrite
  generalize blocklistPath cfg.blDir = P at *
  have plain : ∀ {v : World} {f : Option File} {o : Out Server}, v.fs P = f → DiskHolds f bl.map → (∀ s, o ≠ .ok s) →
      ∃ keys t, (∀ k, onDisk v P k = (bl.map.get k).or (if k ∈ keys then some t else none)) ∧
      (keys = [] ∨ (keys = hs.map Prod.fst ∧ some t ∈ w2.clock)) ∧ (∀ s, o = .ok s → keys = hs.map Prod.fst) := by
    intro v f o hf hd ho
    exact ⟨[], 0, fun k => by rw [onDisk_of_holds (hf ▸ hd)]; simp, Or.inl rfl, fun s e => absurd e (ho s)⟩
  rw [wp_bind]
  have hticks := ticks_save bl w2
  refine wp_mono (R := fun o w' => _) (show wp bl.save w2 (fun o w' => Saved bl.path bl.map o w2 w' ∧ w'.clock <:+ w2.clock) from
    ⟨save_spec bl hwf w2, hticks⟩) ?_
  rintro o v ⟨hsv, hclk⟩
  rw [hp] at hsv
  have bad : ∀ o' : Out Server, (∀ s, o' ≠ .ok s) → (v.fs P = w2.fs P ∧ ∀ s, o' ≠ .ok s) ∨
    ∃ keys t, (∀ k, onDisk v P k = (bl.map.get k).or (if k ∈ keys then some t else none)) ∧
      (keys = [] ∨ (keys = hs.map Prod.fst ∧ some t ∈ w2.clock)) ∧ (∀ s, o' = .ok s → keys = hs.map Prod.fst) := by
    intro o' ho
    rcases hsv.result with ⟨a, _, _⟩ | ⟨a, _⟩
    · exact Or.inl ⟨a, ho⟩
    · exact Or.inr (plain rfl a ho)
  cases o with
  | err e => exact bad _ (by simp)
  | crash => exact bad _ (by simp)
  | ok u =>
    have hv : DiskHolds (v.fs P) bl.map := by
      rcases hsv.result with ⟨_, _, a⟩ | ⟨a, _⟩
      · exact absurd rfl a
      · exact a
    simp only
    rw [wp_bind]
    apply wp_nowNanos
    · intro t c hc
      have ht : some t ∈ w2.clock := hclk.subset (by rw [hc]; simp)
      simp only
      obtain ⟨s1, s2, s3, s4⟩ := seedAll_spec bl hs t
      show wp (do
          (seedAll bl hs t).save
          if senv.bindOk = true then
            pure ({ cfg, handlers := hs, bl := seedAll bl hs t, rl := RateLimiter.new senv.mono, throttle := ⟨none, 0⟩ } : Server)
          else Act.throw .io) _ _
      generalize hb' : seedAll bl hs t = b' at s1 s2 s3 s4
      rw [wp_bind]
      refine wp_mono (save_spec b' (s3 hwf hgood) _) ?_
      intro o2 w4 hs2
      rw [s1, hp] at hs2
      have done : DiskHolds (w4.fs P) b'.map → ∀ o' : Out Server, ∃ keys t, (∀ k, onDisk w4 P k = (bl.map.get k).or (if k ∈ keys then some t else none)) ∧
          (keys = [] ∨ (keys = hs.map Prod.fst ∧ some t ∈ w2.clock)) ∧ (∀ s, o' = .ok s → keys = hs.map Prod.fst) := by
        intro hd o'
        exact ⟨_, t, fun k => by rw [onDisk_of_holds hd, s4], Or.inr ⟨rfl, ht⟩, fun _ _ => rfl⟩
      have bad2 : ∀ o' : Out Server, (∀ s, o' ≠ .ok s) → ∃ keys t, (∀ k, onDisk w4 P k = (bl.map.get k).or (if k ∈ keys then some t else none)) ∧
          (keys = [] ∨ (keys = hs.map Prod.fst ∧ some t ∈ w2.clock)) ∧ (∀ s, o' = .ok s → keys = hs.map Prod.fst) := by
        intro o' ho
        rcases hs2.result with ⟨a, _, _⟩ | ⟨a, _⟩
        · exact plain a hv ho
        · exact done a o'
      cases o2 with
      | err e => exact Or.inr (bad2 _ (by simp))
      | crash => exact Or.inr (bad2 _ (by simp))
      | ok u =>
        have hd : DiskHolds (w4.fs P) b'.map := by
          rcases hs2.result with ⟨_, _, a⟩ | ⟨a, _⟩
          · exact absurd rfl a
          · exact a
        simp only
        split
        · rw [wp_pure]; exact Or.inr (done hd _)
        · rw [wp_throw]; exact Or.inr (done hd _)
    · intro c
      exact Or.inr (plain (v := { v with clock := c }) rfl hv (by simp))

/-- **C57, exactly.** Whatever happened between the two halves, the second start either leaves the replay-state file alone or puts back
what it had read: every counter that was stored at the read is stored again with the old value, and the only additions are the time of the
start for loaded keys that had no counter at the read. A start that reports success has put it back. -/
theorem C57_second_start_puts_back (cfg : ServerCfg) (senv : StartEnv) (hord : ∀ m, (senv.order m).Perm m) (w w1 w2 w3 : World)
    (o : Out Server) (srvB : Handlers × Blocklist) (h1 : Server.createRead cfg senv w = (.ok srvB, w1))
    (h2 : Server.createWrite cfg senv srvB.1 srvB.2 w2 = (o, w3)) (hstat : .statFailed (blocklistPath cfg.blDir) ∉ w1.log) :
    (w3.fs (blocklistPath cfg.blDir) = w2.fs (blocklistPath cfg.blDir) ∧ ∀ s, o ≠ .ok s) ∨
    ∃ keys t, (∀ k, onDisk w3 (blocklistPath cfg.blDir) k = (onDisk w (blocklistPath cfg.blDir) k).or (if k ∈ keys then some t else none)) ∧
      (keys = [] ∨ (keys = srvB.1.map Prod.fst ∧ some t ∈ w2.clock)) ∧ (∀ s, o = .ok s → keys = srvB.1.map Prod.fst) := by
  obtain ⟨hk, hp, hwf, hm⟩ := createRead_ok hord h1
  have := createWrite_map cfg senv srvB.1 srvB.2 hp hwf (createCryptoHandlers_good hk) w2 w3 o h2
  simp only [hm hstat] at this
  exact this

/-- **C57, exactly.** A second start that wrote anything makes the stored counter of a key smaller if and only if that counter grew after
the second start read it. -/
theorem C57_lowered_iff (cfg : ServerCfg) (senv : StartEnv) (hord : ∀ m, (senv.order m).Perm m) (w w1 w2 w3 : World)
    (o : Out Server) (srvB : Handlers × Blocklist) (h1 : Server.createRead cfg senv w = (.ok srvB, w1))
    (h2 : Server.createWrite cfg senv srvB.1 srvB.2 w2 = (o, w3)) (hstat : .statFailed (blocklistPath cfg.blDir) ∉ w1.log)
    (hwrote : w3.fs (blocklistPath cfg.blDir) ≠ w2.fs (blocklistPath cfg.blDir)) (k : List Byte) (v u : U128)
    (hv : onDisk w (blocklistPath cfg.blDir) k = some v) (_hu : onDisk w2 (blocklistPath cfg.blDir) k = some u) :
    (∃ u', onDisk w3 (blocklistPath cfg.blDir) k = some u' ∧ u'.toNat < u.toNat) ↔ v.toNat < u.toNat := by
  rcases C57_second_start_puts_back cfg senv hord w w1 w2 w3 o srvB h1 h2 hstat with ⟨h, _⟩ | ⟨keys, t, h, _⟩
  · exact absurd h hwrote
  · have h := h k
    rw [hv] at h
    simp only [Option.or] at h
    constructor
    · rintro ⟨u', e, hl⟩
      rw [h] at e
      cases e
      exact hl
    · exact fun hl => ⟨v, h, hl⟩

/-- The first half of a start whose `stat` fails. -/
theorem createRead_stat_failed {cfg : ServerCfg} {senv : StartEnv} {w w1 : World} {srvB : Handlers × Blocklist} (h : Server.createRead cfg senv w = (.ok srvB, w1)) {n : Nat} {rest : List Choice}
    (ho : w.oracle = .err n :: rest) : srvB.2.map = [] := by
  have h2 := createRead_inv h
  generalize srvB.2 = bl at *
  unfold Blocklist.load at h2
  obtain ⟨b, w4, h3, h4⟩ := ok_bind h2
  have hb : b = false := by
    unfold pathExists at h3
    obtain ⟨r, w5, h5, h6⟩ := ok_bind h3
    unfold Act.attempt atomicCall syscall at h5
    simp only [ho] at h5
    cases h5
    obtain ⟨_, w6, _, h8⟩ := ok_bind h6
    cases h8
    rfl
  subst hb
  cases h4
  rfl

/-- **C16, exactly.** A start that reported success has kept a stored counter (other than the time of the start) if and only if its first system call, the `stat` of the replay-state file, did not
fail. -/
theorem C16_kept_iff (cfg : ServerCfg) (senv : StartEnv) (hord : ∀ m, (senv.order m).Perm m) (w w' : World) (s : Server) (h : Server.create cfg senv w = (.ok s, w')) (k : List Byte) (v : U128)
    (hv : onDisk w (blocklistPath cfg.blDir) k = some v) (hnow : some v ∉ w.clock) :
    onDisk w' (blocklistPath cfg.blDir) k = some v ↔ ∀ n rest, w.oracle ≠ .err n :: rest := by
  rw [create_eq_read_write] at h
  obtain ⟨srvB, w1, h1, h2⟩ := ok_bind h
  obtain ⟨hk, hp, hwf, hm⟩ := createRead_ok hord h1
  have hw := createWrite_map cfg senv srvB.1 srvB.2 hp hwf (createCryptoHandlers_good hk) w1 w' _ h2
  have hclk : w1.clock = w.clock := createRead_clock h1
  rcases hw with ⟨_, hw⟩ | ⟨keys, t, hw, ht, _⟩
  · exact absurd rfl (hw s)
  constructor
  · intro hd n rest ho
    rw [hw, createRead_stat_failed h1 ho] at hd
    rcases ht with rfl | ⟨_, ht⟩
    · simp [BlMap.get] at hd
    · simp only [BlMap.get, Option.none_or] at hd
      split at hd
      · cases hd
        exact hnow (hclk ▸ ht)
      · cases hd
  · intro ho
    rw [hw, createRead_map h1 ho, hv]
    rfl

/-- A restart at 9000 after 1000 was stored; the `stat` works (`[]`) or fails. -/
def exAgain0 (oracle : List Choice) : World := ([exStart 1000 [], .kill].foldl (exec toyAead) ⟨exEmpty, none⟩).w.withEnv ⟨oracle, [some 9000, some 9000, some 9000]⟩ []
def exAgain (oracle : List Choice) : Out Server × World := Server.create twoCfg ⟨exDir, id, true, 0⟩ (exAgain0 oracle)
theorem exAgain_ok : (exAgain []).1.isOk = true ∧ (exAgain [.err 0]).1.isOk = true := by decide +kernel
theorem exAgain_disk (oracle : List Choice) : onDisk (exAgain0 oracle) (blocklistPath "/s".toList) exKey.id = some 1000 :=
  show onDisk (exAgain0 []) (blocklistPath "/s".toList) exKey.id = some 1000 by decide +kernel

/-- Both sides of `C16_kept_iff` occur. -/
example : onDisk (exAgain []).2 (blocklistPath "/s".toList) exKey.id = some 1000 ∧ onDisk (exAgain [.err 0]).2 (blocklistPath "/s".toList) exKey.id ≠ some 1000 := by
  have hn : ∀ oracle, some (1000 : U128) ∉ (exAgain0 oracle).clock := by
    intro oracle h
    have : (exAgain0 oracle).clock = [some 9000, some 9000, some 9000] := rfl
    rw [this] at h
    exact absurd h (by decide)
  refine ⟨(C16_kept_iff twoCfg ⟨exDir, id, true, 0⟩ (fun _ => .refl _) (exAgain0 []) (exAgain []).2 (outD (exAgain []).1 exServer) (eq_ok_of_isOk _ exAgain_ok.1) exKey.id 1000 (exAgain_disk _) (hn _)).2
    (fun n rest h => by cases (show ([] : List Choice) = .err n :: rest from h)), fun h => ?_⟩
  exact (C16_kept_iff twoCfg ⟨exDir, id, true, 0⟩ (fun _ => .refl _) (exAgain0 [.err 0]) (exAgain [.err 0]).2 (outD (exAgain [.err 0]).1 exServer) (eq_ok_of_isOk _ exAgain_ok.2) exKey.id 1000
    (exAgain_disk _) (hn _)).1 h 0 [] rfl

theorem two_read_quiet : .statFailed (blocklistPath "/s".toList) ∉ twoRead.2.log := by decide +kernel
theorem two_read_disk : onDisk (two0.w.withEnv twoEnv []) (blocklistPath "/s".toList) ((exSealed 5000).take 8) = some 1000 := by decide +kernel

/-- The interleaving of `C57_second_start_lowers_counter` meets the hypotheses. -/
example : (∃ u', onDisk twoWrite.2 (blocklistPath "/s".toList) ((exSealed 5000).take 8) = some u' ∧ u'.toNat < (5000 : U128).toNat) :=
  (C57_lowered_iff twoCfg twoStart (fun _ => .refl _) (two0.w.withEnv twoEnv []) twoRead.2 (two3.w.withEnv twoEnv []) twoWrite.2 twoWrite.1 twoB
    (eq_ok_of_isOk _ two_read_ok) rfl two_read_quiet
    (fun h => by
      have := onDisk_eq h ((exSealed 5000).take 8)
      have a : onDisk (two3.w.withEnv twoEnv []) (blocklistPath "/s".toList) ((exSealed 5000).take 8) = some 5000 := two3_disk
      have b : onDisk twoWrite.2 (blocklistPath "/s".toList) ((exSealed 5000).take 8) = some 1000 := twoWrite_disk
      rw [show twoCfg.blDir = "/s".toList from rfl, a, b] at this
      exact absurd this (by decide))
    ((exSealed 5000).take 8) 1000 5000 two_read_disk two3_disk).2 (by decide)

end Ruroco
