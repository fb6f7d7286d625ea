import Verif.Lemmas.Floors

/-! The replay state began anew: what was acted on since then is below the stored counters, which are at least `B`. -/

namespace Ruroco

open Spec (Acceptable Seals RateOk forwards message PowerLoss Survives)

/-- Every counter in the file is at least `B`. -/
def Least (pw : Bool) (B : Nat) (f : Option File) : Prop :=
  ∀ file, f = some file → (pw = true → file.synced = true) ∧ ∀ m k v, decodeBl file.data = some m → m.get k = some v → B ≤ v.toNat

theorem Least.of_holds {pw : Bool} {B : Nat} {f : Option File} {m : BlMap} (h : DiskHolds f m) (hm : ∀ k v, m.get k = some v → B ≤ v.toNat) : Least pw B f := by
  obtain ⟨file, m', h1, h2, h3, h4, _⟩ := h
  intro g hg
  rw [h1] at hg; cases hg
  refine ⟨fun _ => h2, fun m'' k v hd hv => ?_⟩
  rw [h3] at hd; cases hd
  exact hm k v (by rw [← h4, hv])

theorem Least.get {pw : Bool} {B : Nat} {f : Option File} {m : BlMap} (h : Least pw B f) (hd : DiskHolds f m) : ∀ k v, m.get k = some v → B ≤ v.toNat := by
  obtain ⟨file, m', h1, h2, h3, h4, _⟩ := hd
  intro k v hv
  exact (h file h1).2 m' k v h3 (by rw [h4, hv])

theorem Least.survives {B : Nat} {f g : Option File} (h : Least true B f) (hs : Survives f g) : Least true B g := by
  cases hs with
  | absent => exact h
  | synced _ _ => exact h
  | unsynced _ _ hu => exact absurd ((h _ rfl).1 rfl) (by rw [hu]; nofun)

/-- The commands forwarded are `old` and then others, with increasing counters above `B`. -/
structure Anew (pw : Bool) (dir : Path) (old : List (List Byte × U128)) (B : Nat) (new : List (List Byte × U128)) (s : Sys) : Prop where
  log : acted s.w.log = old ++ new
  floor : ∀ f ∈ cands pw s.w (blocklistPath dir), AtLeast pw new f ∧ Least pw B f
  inc : Increasing new
  above : ∀ x ∈ new, B < x.2.toNat

theorem Anew.packet {A : Aead} {pw : Bool} {dir : Path} {old new : List (List Byte × U128)} {B : Nat} {s : Server} {w w' : World} {env : Env}
    {dg : List Byte} {src : Ip} {o o' : Option Server} (hl : Live pw dir w s) (hf : Anew pw dir old B new ⟨w, some s⟩)
    (h : PacketCase A s dg src (w.withEnv env (dg.take MSG_SIZE)) o w') (hsync : SyncOk pw dir w'.log) : ∃ new', Anew pw dir old B new' ⟨w', o'⟩ := by
  have hp := hl.path
  have hfl := hf.floor _ (List.mem_cons_self ..)
  have hget := hfl.1.get hl.holds
  have hleast := hfl.2.get hl.holds
  have hnew : ∀ {now : Nat} {d : ClientData}, Acceptable A s now src dg d → ∀ x ∈ new, ∃ v, (s.bl.map.insert (dg.take 8) d.counter).get x.1 = some v ∧ x.2.toNat ≤ v.toNat := by
    intro now d ha x hx
    obtain ⟨v, hv, hle⟩ := hget x hx
    rw [BlMap.get_insert]
    by_cases hk : x.1 = dg.take 8
    · rw [if_pos hk]
      obtain ⟨v', hv', hlt⟩ := ha.fresh
      rw [hk, hv'] at hv; cases hv
      exact ⟨_, rfl, by omega⟩
    · rw [if_neg hk]; exact ⟨v, hv, hle⟩
  have hnewl : ∀ {now : Nat} {d : ClientData}, Acceptable A s now src dg d → ∀ k v, (s.bl.map.insert (dg.take 8) d.counter).get k = some v → B ≤ v.toNat := by
    intro now d ha k v hv
    rw [BlMap.get_insert] at hv
    by_cases hk : k = dg.take 8
    · rw [if_pos hk] at hv
      cases hv
      obtain ⟨v', hv', hlt⟩ := ha.fresh
      have := hleast _ _ hv'
      omega
    · rw [if_neg hk] at hv
      exact hleast k v hv
  cases h with
  | nothing _ _ hb hh hc h1 h2 h3 =>
    have e1 : w'.fs = w.fs := h1
    have e2 : w'.pend = w.pend := h2
    have e3 : w'.log = w.log := h3
    refine ⟨new, by simp only [e3]; exact hf.log, ?_, hf.inc, hf.above⟩
    simp only [cands, e1, e2]
    exact hf.floor
  | saved now d hclk ha c o ho _ w' hx hs =>
    have e3 : acted w'.log = acted w.log := by
      unfold acted
      rw [hs.forwards]; rfl
    refine ⟨new, by simp only [e3]; exact hf.log, ?_, hf.inc, hf.above⟩
    rw [hp] at hs
    refine hs.cands (G := fun f => AtLeast pw new f ∧ Least pw B f) ?_ ?_
    · intro f hd
      exact ⟨.of_holds hd (hnew ha), .of_holds hd (hnewl ha)⟩
    · exact hf.floor
  | acted now d hclk ha c _ w1 w' o hx hs hsent =>
    have hcur : w1.cur = dg.take MSG_SIZE := hs.cur
    have hsub : ∀ e ∈ w1.log, e ∈ w'.log := by
      obtain ⟨n, l2, _, h2, _⟩ := hsent.log
      intro e he
      rw [h2]
      exact List.mem_append_left _ (List.mem_append_left _ he)
    have e3 : Ruroco.acted w1.log = Ruroco.acted w.log := by
      unfold Ruroco.acted
      rw [hs.forwards]; rfl
    have hall := cands_after_save (pw := pw) hs (fun h hm => hsync h (by rw [← hp]; exact hsub _ hm))
    have hc : cands pw w' (blocklistPath dir) = cands pw w1 s.bl.path := by
      unfold cands; rw [hsent.fs, hsent.pend, hp]
    obtain ⟨v, hv, hlt⟩ := ha.fresh
    have older : ∀ x ∈ new, x.1 = dg.take 8 → x.2.toNat < d.counter.toNat := by
      intro x hx hk
      obtain ⟨v', hv', hle⟩ := hget x hx
      rw [hk, hv] at hv'; cases hv'
      omega
    rcases hsent.forwards with h1 | ⟨k, h1⟩
    · have e : Ruroco.acted w'.log = Ruroco.acted w.log := by
        rw [← e3]; unfold Ruroco.acted; rw [h1]
      refine ⟨new, by simp only [e]; exact hf.log, ?_, hf.inc, hf.above⟩
      simp only [hc]
      intro f hmem
      exact ⟨.of_holds (hall f hmem) (hnew ha), .of_holds (hall f hmem) (hnewl ha)⟩
    · have e : Ruroco.acted w'.log = Ruroco.acted w.log ++ [(dg.take 8, d.counter)] := by
        rw [← e3]; unfold Ruroco.acted; rw [h1, hcur]
        simp [MSG_SIZE, List.take_take]
      refine ⟨new ++ [(dg.take 8, d.counter)], ?_, ?_, ?_, ?_⟩
      · simp only [e]
        rw [show Ruroco.acted w.log = old ++ new from hf.log, List.append_assoc]
      · simp only [hc]
        intro f hmem
        refine ⟨AtLeast.of_holds (hall f hmem) ?_, .of_holds (hall f hmem) (hnewl ha)⟩
        intro x hx
        rcases List.mem_append.1 hx with hx | hx
        · exact hnew ha x hx
        · simp at hx; subst hx
          exact ⟨d.counter, by simp [BlMap.get_insert], Nat.le_refl _⟩
      · unfold Increasing
        rw [List.pairwise_append]
        refine ⟨hf.inc, by simp, ?_⟩
        intro a ha' b hb hab
        simp at hb; subst hb
        exact older a ha' hab
      · intro x hx
        rcases List.mem_append.1 hx with hx | hx
        · exact hf.above x hx
        · simp at hx; subst hx
          exact Nat.lt_of_le_of_lt (hleast _ _ hv) hlt

theorem Anew.started {pw : Bool} {cfg : ServerCfg} {senv : StartEnv} {old new : List (List Byte × U128)} {B : Nat} {w w' : World} {env : Env} {o : Out Server}
    {a b : Option Server} (hf : Anew pw cfg.blDir old B new ⟨w, a⟩) (h : Created cfg senv (w.withEnv env []) o w') (hB : ∀ t, some t ∈ env.clock → B ≤ t.toNat)
    (hstat : .statFailed (blocklistPath cfg.blDir) ∉ w'.log) : Anew pw cfg.blDir old B new ⟨w', b⟩ := by
  have e : acted w'.log = acted w.log := by
    obtain ⟨l, hl, hfe⟩ := h.log
    unfold acted
    rw [hl, forwards_append, forwards_fileEvents hfe, List.append_nil]; rfl
  refine ⟨by simp only [e]; exact hf.log, ?_, hf.inc, hf.above⟩
  refine h.keeps pw (fun f => AtLeast pw new f ∧ Least pw B f) hf.floor ?_
  intro m m' keys floor f ht hseed hfl hd _
  have h0 := hf.floor (w.fs (blocklistPath cfg.blDir)) (List.mem_cons_self ..)
  have hm : ∀ k v, m.get k = some v → B ≤ v.toNat := by
    intro k v hv
    rcases ht with (⟨_, h1⟩ | ⟨g, h1, h2⟩) | ⟨h1, _⟩
    · rw [h1] at hv; cases hv
    · exact (h0.2 g h1).2 m k v h2 hv
    · rw [h1] at hv; cases hv
  refine ⟨AtLeast.of_holds hd ?_, Least.of_holds hd ?_⟩
  · intro x hx
    obtain ⟨file, m1, v, e1, _, e3, e4, e5⟩ := h0.1 x hx
    rcases ht with (⟨h1, _⟩ | ⟨g, h1, h2⟩) | ⟨_, h1⟩
    · have h1 : w.fs (blocklistPath cfg.blDir) = none := h1
      rw [e1] at h1; cases h1
    · have h1 : w.fs (blocklistPath cfg.blDir) = some g := h1
      rw [e1] at h1; cases h1
      rw [e3] at h2; cases h2
      exact ⟨v, by rw [hseed.get, e4]; rfl, e5⟩
    · exact absurd h1 hstat
  · intro k v hv
    rw [hseed.get] at hv
    cases hk : m.get k with
    | some v' =>
      rw [hk] at hv
      cases hv
      exact hm k _ hk
    | none =>
      rw [hk, Option.none_or] at hv
      split at hv
      · rename_i hmem
        cases hv
        rcases hfl with hfl | rfl
        · exact hB _ hfl
        · cases hmem
      · cases hv

theorem Anew.step {A : Aead} {pw : Bool} {dir : Path} {old new : List (List Byte × U128)} {B : Nat} {s s' : Sys} {e : Ev} (h : Step A dir s e s')
    (hl : ∀ srv, s.srv = some srv → Live pw dir s.w srv) (hsync : SyncOk pw dir s'.w.log) (hpw : e = .power → pw = true)
    (hB : ∀ env cfg senv, e = .start env cfg senv → ∀ t, some t ∈ env.clock → B ≤ t.toNat)
    (hstat : .statFailed (blocklistPath dir) ∉ s'.w.log) (hf : Anew pw dir old B new s) : ∃ new', Anew pw dir old B new' s' := by
  cases h with
  | started w env cfg senv s w' hdir hord h => subst hdir; exact ⟨new, hf.started (created_of_step hord h) (hB _ _ _ rfl) hstat⟩
  | startFailed w env cfg senv o w' hdir hord h hne => subst hdir; exact ⟨new, hf.started (created_of_step hord h) (hB _ _ _ rfl) hstat⟩
  | packet w s env dg src rd tLog s' r w' h => exact hf.packet (hl _ rfl) (packetCase_of_step (hl _ rfl).wf h) hsync
  | packetCrash w s env dg src rd tLog w' h => exact hf.packet (hl _ rfl) (packetCase_of_step (hl _ rfl).wf h) hsync
  | kill w s => exact ⟨new, hf.log, hf.floor, hf.inc, hf.above⟩
  | power w s w' h =>
    have hpw := hpw rfl
    subst hpw
    refine ⟨new, by simp only [h.log]; exact hf.log, ?_, hf.inc, hf.above⟩
    simp only [cands, h.nothingPending]
    intro f hm
    simp at hm; subst hm
    obtain ⟨g, hg, hs⟩ := h.entries (blocklistPath dir)
    have := hf.floor g (by simpa [cands] using hg)
    exact ⟨this.1.survives hs, this.2.survives hs⟩
  | others w w' s hfs hpend hlog =>
    refine ⟨new, by simp only [hlog]; exact hf.log, ?_, hf.inc, hf.above⟩
    simp only [cands, hfs, hpend]
    exact hf.floor

theorem Run.anew {A : Aead} {pw : Bool} {dir : Path} {old : List (List Byte × U128)} {B : Nat} {w : World} {s' : Sys} {evs : List Ev} (h : Run A dir ⟨w, none⟩ evs s')
    (hf : Anew pw dir old B [] ⟨w, none⟩) (hpw : .power ∈ evs → pw = true) (hB : ∀ env cfg senv, .start env cfg senv ∈ evs → ∀ t, some t ∈ env.clock → B ≤ t.toNat)
    (hsync : SyncOk pw dir s'.w.log) (hstat : .statFailed (blocklistPath dir) ∉ s'.w.log) :
    (∃ new, Anew pw dir old B new s') ∧ ∀ srv, s'.srv = some srv → Live pw dir s'.w srv := by
  generalize hs : (⟨w, none⟩ : Sys) = s at h
  induction h with
  | nil => subst hs; exact ⟨⟨[], hf⟩, fun srv h => by cases h⟩
  | snoc hr hst ih =>
    subst hs
    have hwf := live_run_false hr (fun srv hs => by cases hs)
    obtain ⟨l, hl⟩ := hst.log_sub (fun srv hs => (hwf srv hs).wf)
    have hy := hsync
    rw [hl] at hy
    obtain ⟨⟨new, h1⟩, h2⟩ := ih (fun hm => hpw (List.mem_append_left _ hm)) (fun env cfg senv hm => hB env cfg senv (List.mem_append_left _ hm)) hy.mono
      (fun hm => hstat (by rw [hl]; exact List.mem_append_left _ hm))
    exact ⟨h1.step hst h2 hsync (fun he => hpw (by simp [he])) (fun env cfg senv he => hB env cfg senv (by simp [he])) hstat, Live.step hst h2 hsync⟩

end Ruroco
