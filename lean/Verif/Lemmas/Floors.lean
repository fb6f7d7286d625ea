import Verif.Lemmas.History

/-! The stored counters never fall below what was acted on. -/

namespace Ruroco

open Spec (Acceptable Seals RateOk forwards message PowerLoss Survives)

/-- The file holds, for each `(key, c)` of `need`, a counter of at least `c` (and is on disk, if power may be lost). -/
def AtLeast (pw : Bool) (need : List (List Byte × U128)) (f : Option File) : Prop :=
  ∀ x ∈ need, ∃ file m v, f = some file ∧ (pw = true → file.synced = true) ∧ decodeBl file.data = some m ∧ m.get x.1 = some v ∧ x.2.toNat ≤ v.toNat

theorem AtLeast.of_holds {pw : Bool} {need : List (List Byte × U128)} {f : Option File} {m : BlMap} (h : DiskHolds f m)
    (hm : ∀ x ∈ need, ∃ v, m.get x.1 = some v ∧ x.2.toNat ≤ v.toNat) : AtLeast pw need f := by
  obtain ⟨file, m', h1, h2, h3, h4, _⟩ := h
  intro x hx
  obtain ⟨v, hv, hle⟩ := hm x hx
  exact ⟨file, m', v, h1, fun _ => h2, h3, by rw [h4, hv], hle⟩

theorem AtLeast.get {pw : Bool} {need : List (List Byte × U128)} {f : Option File} {m : BlMap} (h : AtLeast pw need f) (hd : DiskHolds f m) :
    ∀ x ∈ need, ∃ v, m.get x.1 = some v ∧ x.2.toNat ≤ v.toNat := by
  obtain ⟨file, m', h1, h2, h3, h4, _⟩ := hd
  intro x hx
  obtain ⟨file', m'', v, e1, _, e3, e4, e5⟩ := h x hx
  rw [h1] at e1; cases e1
  rw [h3] at e3; cases e3
  exact ⟨v, by rw [← h4, e4], e5⟩

theorem AtLeast.survives {need : List (List Byte × U128)} {f g : Option File} (h : AtLeast true need f) (hs : Survives f g) : AtLeast true need g := by
  intro x hx
  obtain ⟨file, m, v, rfl, h2, h3, h4⟩ := h x hx
  have h2 := h2 rfl
  cases hs with
  | synced _ _ => exact ⟨file, m, v, rfl, fun _ => h2, h3, h4⟩
  | unsynced _ _ hu => rw [h2] at hu; cases hu

/-- Key id and counter of the commands forwarded so far. -/
def acted (log : List Event) : List (List Byte × U128) := (forwards log).map (fun x => (x.1.take 8, x.2.1))

/-- Strictly increasing per key. -/
def Increasing (l : List (List Byte × U128)) : Prop := l.Pairwise (fun a b => a.1 = b.1 → a.2.toNat < b.2.toNat)

structure Floors (pw : Bool) (dir : Path) (base : List (List Byte × U128)) (s : Sys) : Prop where
  floor : ∀ f ∈ cands pw s.w (blocklistPath dir), AtLeast pw (base ++ acted s.w.log) f
  inc : Increasing (acted s.w.log)
  above : ∀ b ∈ base, ∀ x ∈ acted s.w.log, b.1 = x.1 → b.2.toNat < x.2.toNat

theorem acted_append (a b : List Event) : acted (a ++ b) = acted a ++ acted b := by
  simp [acted, forwards_append]

/-- What a packet does to the floors. -/
theorem Floors.packet {A : Aead} {pw : Bool} {dir : Path} {base : List (List Byte × U128)} {s : Server} {w w' : World} {env : Env}
    {dg : List Byte} {src : Ip} {o o' : Option Server} (hl : Live pw dir w s) (hf : Floors pw dir base ⟨w, some s⟩)
    (h : PacketCase A s dg src (w.withEnv env (dg.take MSG_SIZE)) o w') (hsync : SyncOk pw dir w'.log) : Floors pw dir base ⟨w', o'⟩ := by
  have hp := hl.path
  have hget := (hf.floor _ (by simp [cands])).get hl.holds
  -- the new map satisfies the old needs
  have hnew : ∀ {now : Nat} {d : ClientData}, Acceptable A s now src dg d →
      ∀ x ∈ base ++ acted w.log, ∃ v, (s.bl.map.insert (dg.take 8) d.counter).get x.1 = some v ∧ x.2.toNat ≤ v.toNat := by
    intro now d ha x hx
    obtain ⟨v, hv, hle⟩ := hget x hx
    rw [BlMap.get_insert]
    by_cases hk : x.1 = dg.take 8
    · rw [if_pos hk]
      obtain ⟨v', hv', hlt⟩ := ha.fresh
      rw [hk, hv'] at hv; cases hv
      exact ⟨_, rfl, by omega⟩
    · rw [if_neg hk]; exact ⟨v, hv, hle⟩
  cases h with
  | nothing _ _ hb hh hc h1 h2 h3 =>
    have e1 : w'.fs = w.fs := h1
    have e2 : w'.pend = w.pend := h2
    have e3 : w'.log = w.log := h3
    refine ⟨?_, by simp only [e3]; exact hf.inc, by simp only [e3]; exact hf.above⟩
    simp only [e3, cands, e1, e2]
    exact hf.floor
  | saved now d hclk ha c o ho _ w' hx hs =>
    have e3 : acted w'.log = acted w.log := by
      unfold acted
      rw [hs.forwards]; rfl
    refine ⟨?_, by simp only [e3]; exact hf.inc, by simp only [e3]; exact hf.above⟩
    simp only [e3]
    rw [hp] at hs
    refine hs.cands (G := AtLeast pw (base ++ acted w.log)) ?_ ?_
    · intro f hd
      exact .of_holds hd (hnew ha)
    · exact hf.floor
  | acted now d hclk ha c _ w1 w' o hx hs hsent =>
    have hcur : w1.cur = dg.take MSG_SIZE := hs.cur
    have hsub : ∀ e ∈ w1.log, e ∈ w'.log := by
      obtain ⟨n, l2, _, h2, _⟩ := hsent.log
      intro e he
      rw [h2]
      exact List.mem_append_left _ (List.mem_append_left _ he)
    have e3 : Ruroco.acted w1.log = Ruroco.acted w.log := by
      unfold Ruroco.acted
      rw [hs.forwards]; rfl
    have hall := cands_after_save (pw := pw) hs (fun h hm => hsync h (by rw [← hp]; exact hsub _ hm))
    have hc : cands pw w' (blocklistPath dir) = cands pw w1 s.bl.path := by
      unfold cands; rw [hsent.fs, hsent.pend, hp]
    obtain ⟨v, hv, hlt⟩ := ha.fresh
    have old : ∀ x ∈ base ++ Ruroco.acted w.log, x.1 = dg.take 8 → x.2.toNat < d.counter.toNat := by
      intro x hx hk
      obtain ⟨v', hv', hle⟩ := hget x hx
      rw [hk, hv] at hv'; cases hv'
      omega
    rcases hsent.forwards with h1 | ⟨k, h1⟩
    · have e : Ruroco.acted w'.log = Ruroco.acted w.log := by
        rw [← e3]; unfold Ruroco.acted; rw [h1]
      refine ⟨?_, by simp only [e]; exact hf.inc, by simp only [e]; exact hf.above⟩
      simp only [e, hc]
      intro f hmem
      exact .of_holds (hall f hmem) (hnew ha)
    · have e : Ruroco.acted w'.log = Ruroco.acted w.log ++ [(dg.take 8, d.counter)] := by
        rw [← e3]; unfold Ruroco.acted; rw [h1, hcur]
        simp [MSG_SIZE, List.take_take]
      refine ⟨?_, ?_, ?_⟩
      · simp only [e, hc]
        intro f hmem
        apply AtLeast.of_holds (hall f hmem)
        intro x hx
        rw [← List.append_assoc] at hx
        rcases List.mem_append.1 hx with hx | hx
        · exact hnew ha x hx
        · simp at hx; subst hx
          exact ⟨d.counter, by simp [BlMap.get_insert], Nat.le_refl _⟩
      · simp only [e]
        unfold Increasing
        rw [List.pairwise_append]
        refine ⟨hf.inc, by simp, ?_⟩
        intro a ha' b hb hab
        simp at hb; subst hb
        exact old a (List.mem_append_right _ ha') hab
      · simp only [e]
        intro b hb x hx hbx
        rcases List.mem_append.1 hx with hx | hx
        · exact hf.above b hb x hx hbx
        · simp at hx; subst hx
          exact old b (List.mem_append_left _ hb) hbx

theorem Floors.started {pw : Bool} {cfg : ServerCfg} {senv : StartEnv} {base : List (List Byte × U128)} {w w' : World} {env : Env} {o : Out Server}
    {a b : Option Server} (hf : Floors pw cfg.blDir base ⟨w, a⟩) (h : Created cfg senv (w.withEnv env []) o w')
    (hstat : .statFailed (blocklistPath cfg.blDir) ∉ w'.log) : Floors pw cfg.blDir base ⟨w', b⟩ := by
  have e : acted w'.log = acted w.log := by
    obtain ⟨l, hl, hfe⟩ := h.log
    unfold acted
    rw [hl, forwards_append, forwards_fileEvents hfe, List.append_nil]; rfl
  refine ⟨?_, by simp only [e]; exact hf.inc, by simp only [e]; exact hf.above⟩
  simp only [e]
  refine h.keeps pw (AtLeast pw (base ++ acted w.log)) hf.floor ?_
  intro m m' keys floor f ht hseed hfl hd _
  apply AtLeast.of_holds hd
  intro x hx
  have h0 := hf.floor (w.fs (blocklistPath cfg.blDir)) (by simp [cands]) x hx
  obtain ⟨file, m1, v, e1, _, e3, e4, e5⟩ := h0
  rcases ht with (⟨h1, _⟩ | ⟨g, h1, h2⟩) | ⟨_, h1⟩
  · have h1 : w.fs (blocklistPath cfg.blDir) = none := h1
    rw [e1] at h1; cases h1
  · have h1 : w.fs (blocklistPath cfg.blDir) = some g := h1
    rw [e1] at h1; cases h1
    rw [e3] at h2; cases h2
    exact ⟨v, by rw [hseed.get, e4]; rfl, e5⟩
  · exact absurd h1 hstat

theorem Floors.step {A : Aead} {pw : Bool} {dir : Path} {base : List (List Byte × U128)} {s s' : Sys} {e : Ev} (h : Step A dir s e s')
    (hl : ∀ srv, s.srv = some srv → Live pw dir s.w srv) (hsync : SyncOk pw dir s'.w.log) (hpw : e = .power → pw = true)
    (hstat : .statFailed (blocklistPath dir) ∉ s'.w.log) (hf : Floors pw dir base s) : Floors pw dir base s' := by
  cases h with
  | started w env cfg senv s w' hdir hord h => subst hdir; exact hf.started (created_of_step hord h) hstat
  | startFailed w env cfg senv o w' hdir hord h hne => subst hdir; exact hf.started (created_of_step hord h) hstat
  | packet w s env dg src rd tLog s' r w' h => exact hf.packet (hl _ rfl) (packetCase_of_step (hl _ rfl).wf h) hsync
  | packetCrash w s env dg src rd tLog w' h => exact hf.packet (hl _ rfl) (packetCase_of_step (hl _ rfl).wf h) hsync
  | kill w s => exact ⟨hf.floor, hf.inc, hf.above⟩
  | power w s w' h =>
    have hpw := hpw rfl
    subst hpw
    refine ⟨?_, by simp only [h.log]; exact hf.inc, by simp only [h.log]; exact hf.above⟩
    simp only [h.log, cands, h.nothingPending]
    intro f hm
    simp at hm; subst hm
    obtain ⟨g, hg, hs⟩ := h.entries (blocklistPath dir)
    exact (hf.floor g (by simpa [cands] using hg)).survives hs
  | others w w' s hfs hpend hlog =>
    refine ⟨?_, by simp only [hlog]; exact hf.inc, by simp only [hlog]; exact hf.above⟩
    simp only [hlog, cands, hfs, hpend]
    exact hf.floor

theorem Run.floors {A : Aead} {pw : Bool} {dir : Path} {base : List (List Byte × U128)} {s s' : Sys} {evs : List Ev} (h : Run A dir s evs s')
    (h0 : ∀ srv, s.srv = some srv → Live pw dir s.w srv) (hf : Floors pw dir base s) (hpw : .power ∈ evs → pw = true)
    (hsync : SyncOk pw dir s'.w.log) (hstat : .statFailed (blocklistPath dir) ∉ s'.w.log) : Floors pw dir base s' := by
  -- carry "the trace so far has no failed stat" backwards along the history
  refine (Run.induct (A := A) (pw := pw) (dir := dir) (fun s => .statFailed (blocklistPath dir) ∉ s.w.log → Floors pw dir base s) h0
    (fun _ => hf) ?_ h hpw hsync).1 hstat
  intro s1 e s2 hst hl hsy he hI hns
  obtain ⟨l, hlog⟩ := hst.log_sub (fun srv hs => (hl srv hs).wf)
  exact Floors.step hst hl hsy he hns (hI (fun hm => hns (by rw [hlog]; exact List.mem_append_left _ hm)))

end Ruroco
