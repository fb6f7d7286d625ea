import Verif.Lemmas.Floors

/-! Stored counters stay below what clocks and initial state allow; forwarded commands are sealed under a configured key. -/

namespace Ruroco

open Spec (Acceptable Seals RateOk forwards message PowerLoss Survives)

/-- No counter in the file exceeds `B`. -/
def Bounded (pw : Bool) (B : Nat) (f : Option File) : Prop :=
  ∀ file, f = some file → (pw = true → file.synced = true) ∧ ∀ m k v, decodeBl file.data = some m → m.get k = some v → v.toNat ≤ B

theorem Bounded.of_holds {pw : Bool} {B : Nat} {f : Option File} {m : BlMap} (h : DiskHolds f m) (hm : ∀ k v, m.get k = some v → v.toNat ≤ B) :
    Bounded pw B f := by
  obtain ⟨file, m', h1, h2, h3, h4, _⟩ := h
  intro g hg
  rw [h1] at hg; cases hg
  refine ⟨fun _ => h2, fun m'' k v hd hv => ?_⟩
  rw [h3] at hd; cases hd
  exact hm k v (by rw [← h4, hv])

theorem Bounded.get {pw : Bool} {B : Nat} {f : Option File} {m : BlMap} (h : Bounded pw B f) (hd : DiskHolds f m) :
    ∀ k v, m.get k = some v → v.toNat ≤ B := by
  obtain ⟨file, m', h1, h2, h3, h4, _⟩ := hd
  intro k v hv
  exact (h file h1).2 m' k v h3 (by rw [h4, hv])

/-- Clock readings and skew settings of an event are within the bound. -/
def Ev.Within (B S : Nat) : Ev → Prop
  | .start env cfg _ => (∀ t, some t ∈ env.clock → t.toNat ≤ B) ∧ cfg.skewSeconds.toNat ≤ S
  | .packet env _ _ _ _ => ∀ t, some t ∈ env.clock → t.toNat + S * 1000000000 ≤ B
  | _ => True

structure Below (pw : Bool) (dir : Path) (B S : Nat) (s : Sys) : Prop where
  disk : ∀ f ∈ cands pw s.w (blocklistPath dir), Bounded pw B f
  skew : ∀ srv, s.srv = some srv → srv.cfg.skewSeconds.toNat ≤ S
  acted : ∀ x ∈ acted s.w.log, x.2.toNat ≤ B

theorem Below.packet {A : Aead} {pw : Bool} {dir : Path} {B S : Nat} {s : Server} {w w' : World} {env : Env}
    {dg : List Byte} {src : Ip} {o : Option Server} (hl : Live false dir w s) (hf : Below pw dir B S ⟨w, some s⟩)
    (hw : ∀ t, some t ∈ env.clock → t.toNat + S * 1000000000 ≤ B)
    (h : PacketCase A s dg src (w.withEnv env (dg.take MSG_SIZE)) o w') : Below pw dir B S ⟨w', o⟩ := by
  have hp := hl.path
  have hget := (hf.disk _ (by simp [cands])).get hl.holds
  have hsk := hf.skew s rfl
  have hcnt : ∀ {now : U128} {d : ClientData}, some now ∈ (w.withEnv env (dg.take MSG_SIZE)).clock → Acceptable A s now.toNat src dg d → d.counter.toNat ≤ B := by
    intro now d hc ha
    have h1 := hw now hc
    have h2 := ha.notFuture
    have h3 := Nat.mul_le_mul_right 1000000000 hsk
    omega
  have hnew : ∀ {now : U128} {d : ClientData}, some now ∈ (w.withEnv env (dg.take MSG_SIZE)).clock → Acceptable A s now.toNat src dg d →
      ∀ k v, (s.bl.map.insert (dg.take 8) d.counter).get k = some v → v.toNat ≤ B := by
    intro now d hc ha k v hv
    rw [BlMap.get_insert] at hv
    by_cases hk : k = dg.take 8
    · rw [if_pos hk] at hv; cases hv; exact hcnt hc ha
    · rw [if_neg hk] at hv; exact hget k v hv
  cases h with
  | nothing s' _ hb hh hc h1 h2 h3 =>
    have e1 : w'.fs = w.fs := h1
    have e2 : w'.pend = w.pend := h2
    have e3 : w'.log = w.log := h3
    refine ⟨?_, fun srv hs => by cases hs; rw [hc]; exact hsk, by simp only [e3]; exact hf.acted⟩
    simp only [cands, e1, e2]
    exact hf.disk
  | saved now d hclk ha c o ho _ w' hx hs =>
    have e3 : Ruroco.acted w'.log = Ruroco.acted w.log := by
      unfold Ruroco.acted
      rw [hs.forwards]; rfl
    refine ⟨?_, fun srv hsrv => by rw [(hx srv hsrv).2.2.1]; exact hsk, by simp only [e3]; exact hf.acted⟩
    rw [hp] at hs
    refine hs.cands (G := Bounded pw B) ?_ ?_
    · intro f hd
      exact .of_holds hd (hnew hclk ha)
    · exact hf.disk
  | acted now d hclk ha c _ w1 w' o hx hs hsent =>
    have hcur : w1.cur = dg.take MSG_SIZE := hs.cur
    have e3 : Ruroco.acted w1.log = Ruroco.acted w.log := by
      unfold Ruroco.acted
      rw [hs.forwards]; rfl
    refine ⟨?_, fun srv hsrv => by rw [(hx srv hsrv).2.2]; exact hsk, ?_⟩
    · rw [hp] at hs
      have := hs.cands (pw := pw) (G := Bounded pw B) (fun f hd => .of_holds hd (hnew hclk ha)) hf.disk
      have hc : cands pw w' (blocklistPath dir) = cands pw w1 (blocklistPath dir) := by
        unfold cands; rw [hsent.fs, hsent.pend]
      simp only [hc]
      exact this
    · intro x hx
      rcases hsent.forwards with h1 | ⟨k, h1⟩
      · have e : Ruroco.acted w'.log = Ruroco.acted w.log := by
          rw [← e3]; unfold Ruroco.acted; rw [h1]
        rw [e] at hx; exact hf.acted x hx
      · have e : Ruroco.acted w'.log = Ruroco.acted w.log ++ [(dg.take 8, d.counter)] := by
          rw [← e3]; unfold Ruroco.acted; rw [h1, hcur]
          simp [MSG_SIZE, List.take_take]
        simp only [e] at hx
        rcases List.mem_append.1 hx with hx | hx
        · exact hf.acted x hx
        · simp at hx; subst hx; exact hcnt hclk ha

theorem Below.started {pw : Bool} {cfg : ServerCfg} {senv : StartEnv} {B S : Nat} {w w' : World} {env : Env} {o : Out Server}
    {a b : Option Server} (hf : Below pw cfg.blDir B S ⟨w, a⟩) (h : Created cfg senv (w.withEnv env []) o w')
    (hw : ∀ t, some t ∈ env.clock → t.toNat ≤ B) (hb : ∀ srv, b = some srv → srv.cfg.skewSeconds.toNat ≤ S) :
    Below pw cfg.blDir B S ⟨w', b⟩ := by
  have e : Ruroco.acted w'.log = Ruroco.acted w.log := by
    obtain ⟨l, hl, hfe⟩ := h.log
    unfold Ruroco.acted
    rw [hl, forwards_append, forwards_fileEvents hfe, List.append_nil]; rfl
  refine ⟨?_, hb, by simp only [e]; exact hf.acted⟩
  refine h.keeps pw (Bounded pw B) hf.disk ?_
  intro m m' keys floor f ht hseed hfl hd _
  apply Bounded.of_holds hd
  intro k v hv
  rw [hseed.get] at hv
  have h0 := hf.disk (w.fs (blocklistPath cfg.blDir)) (by simp [cands])
  cases hm : m.get k with
  | some v' =>
    rw [hm] at hv
    simp at hv; subst hv
    rcases ht with (⟨_, rfl⟩ | ⟨g, h1, h2⟩) | ⟨rfl, _⟩
    · simp [BlMap.get] at hm
    · exact (h0 g h1).2 m k v' h2 hm
    · simp [BlMap.get] at hm
  | none =>
    rw [hm] at hv
    simp only [Option.none_or] at hv
    split at hv
    · rename_i hk
      cases hv
      rcases hfl with hfl | rfl
      · exact hw _ hfl
      · simp at hk
    · cases hv

theorem Below.step {A : Aead} {pw : Bool} {dir : Path} {B S : Nat} {s s' : Sys} {e : Ev} (h : Step A dir s e s')
    (hl : ∀ srv, s.srv = some srv → Live false dir s.w srv) (hpw : e = .power → pw = true) (he : e.Within B S)
    (hf : Below pw dir B S s) : Below pw dir B S s' := by
  cases h with
  | started w env cfg senv s w' hdir hord h =>
    subst hdir
    have hc := created_of_step hord h
    refine hf.started hc he.1 ?_
    intro srv hs
    cases hs
    rw [(hc.ok _ rfl).1]; exact he.2
  | startFailed w env cfg senv o w' hdir hord h hne =>
    subst hdir
    exact hf.started (created_of_step hord h) he.1 (by simp)
  | packet w s env dg src rd tLog s' r w' h => exact hf.packet (hl _ rfl) he (packetCase_of_step (hl _ rfl).wf h)
  | packetCrash w s env dg src rd tLog w' h => exact hf.packet (hl _ rfl) he (packetCase_of_step (hl _ rfl).wf h)
  | kill w s => exact ⟨hf.disk, by simp, hf.acted⟩
  | power w s w' h =>
    have hpw := hpw rfl
    subst hpw
    refine ⟨?_, by simp, by simp only [h.log]; exact hf.acted⟩
    simp only [cands, h.nothingPending]
    intro f hm
    simp at hm; subst hm
    obtain ⟨g, hg, hs⟩ := h.entries (blocklistPath dir)
    have hg := hf.disk g (by simpa [cands] using hg)
    intro file hfile
    rw [hfile] at hs
    cases hs with
    | synced _ _ => exact hg _ rfl
    | unsynced _ _ hu => have := (hg _ rfl).1 rfl; rw [hu] at this; cases this
  | others w w' s hfs hpend hlog =>
    refine ⟨?_, hf.skew, by simp only [hlog]; exact hf.acted⟩
    simp only [cands, hfs, hpend]
    exact hf.disk

theorem run_below {A : Aead} {pw : Bool} {dir : Path} {B S : Nat} {s s' : Sys} {evs : List Ev} (h : Run A dir s evs s')
    (h0 : ∀ srv, s.srv = some srv → Live false dir s.w srv) (hf : Below pw dir B S s) (hpw : .power ∈ evs → pw = true)
    (he : ∀ e ∈ evs, e.Within B S) : Below pw dir B S s' := by
  induction h with
  | nil => exact hf
  | snoc hr hst ih =>
    exact Below.step hst (live_run_false hr h0) (fun h => hpw (by simp [h])) (he _ (by simp))
      (ih (fun h => hpw (List.mem_append_left _ h)) (fun e h => he e (List.mem_append_left _ h)))

/-! ## Forwarded commands are sealed -/

/-- All keys loaded by this event are those of the key table `K`. -/
def Ev.KeysFrom (K : List Byte → Option (List Byte)) : Ev → Prop
  | .start _ _ senv => ∀ hs, createCryptoHandlers senv.dir = .ok hs → ∀ id h, hs.get id = some h → K id = some h.key
  | _ => True

/-- Forwarded entry `x` comes from a datagram of the history that is sealed under the key it names. -/
def Genuine (A : Aead) (K : List Byte → Option (List Byte)) (evs : List Ev) (x : List Byte × U128 × List Byte) : Prop :=
  ∃ env dg src rd t key d n, .packet env dg src rd t ∈ evs ∧ 94 ≤ dg.length ∧ x.1 = dg.take 94 ∧ K (x.1.take 8) = some key ∧
    Seals A key x.1 d ∧ x.2.1 = d.counter ∧ x.2.2 = (message d (normalizeIp src)).take n

theorem seals_take (A : Aead) (key dg : List Byte) (d : ClientData) : Seals A key (dg.take 94) d ↔ Seals A key dg d := by
  unfold Seals slice
  simp only [List.take_take, List.drop_take]
  simp

theorem run_genuine {A : Aead} {dir : Path} {K : List Byte → Option (List Byte)} {s s' : Sys} {evs : List Ev} (h : Run A dir s evs s')
    (h0 : s.srv = none) (hlog : forwards s.w.log = []) (hK : ∀ e ∈ evs, e.KeysFrom K) :
    (∀ srv, s'.srv = some srv → ∀ id h, srv.handlers.get id = some h → K id = some h.key) ∧
      ∀ x ∈ forwards s'.w.log, Genuine A K evs x := by
  have hlive : ∀ srv, s.srv = some srv → Live false dir s.w srv := fun srv hs => by rw [h0] at hs; cases hs
  induction h with
  | nil => exact ⟨fun srv hs => (by rw [h0] at hs; cases hs), by simp [hlog]⟩
  | snoc hr hst ih =>
    rename_i s2 s3 evs e
    obtain ⟨ih1, ih2⟩ := ih (fun e h => hK e (List.mem_append_left _ h))
    have hl := live_run_false hr hlive
    have weaken : ∀ {x}, Genuine A K evs x → Genuine A K (evs ++ [e]) x := by
      rintro x ⟨env, dg, src, rd, t, key, d, n, h1, h2⟩
      exact ⟨env, dg, src, rd, t, key, d, n, List.mem_append_left _ h1, h2⟩
    have startLog : ∀ {cfg senv o w' w env}, Created cfg senv (World.withEnv w env []) o w' → forwards w'.log = forwards w.log := by
      intro cfg senv o w' w env h
      obtain ⟨l, hl, hfe⟩ := h.log
      rw [hl, forwards_append, forwards_fileEvents hfe, List.append_nil]; rfl
    have pk : ∀ {w : World} {s : Server} {env : Env} {dg : List Byte} {src : Ip} {rd : Readings} {t : Nat} {o : Option Server} {w' : World},
        e = .packet env dg src rd t → (∀ id h, s.handlers.get id = some h → K id = some h.key) → (∀ x ∈ forwards w.log, Genuine A K evs x) →
        PacketCase A s dg src (w.withEnv env (dg.take MSG_SIZE)) o w' →
        (∀ srv, o = some srv → ∀ id h, srv.handlers.get id = some h → K id = some h.key) ∧ ∀ x ∈ forwards w'.log, Genuine A K (evs ++ [e]) x := by
      intro w s env dg src rd t o w' he hs hx h
      cases h with
      | nothing s' _ hb hh hc h1 h2 h3 =>
        have e3 : w'.log = w.log := h3
        exact ⟨fun srv hsrv => by cases hsrv; rw [hh]; exact hs, by rw [e3]; exact fun x h => weaken (hx x h)⟩
      | saved now d hclk ha c o ho _ w' hy hsv =>
        refine ⟨fun srv hsrv => by rw [(hy srv hsrv).2.1]; exact hs, ?_⟩
        rw [hsv.forwards]; exact fun x h => weaken (hx x h)
      | acted now d hclk ha c _ w1 w' o hy hsv hsent =>
        refine ⟨fun srv hsrv => by rw [(hy srv hsrv).2.1]; exact hs, ?_⟩
        have hf1 : forwards w1.log = forwards w.log := hsv.forwards
        rcases hsent.forwards with h1 | ⟨k, h1⟩
        · rw [h1, hf1]; exact fun x h => weaken (hx x h)
        · rw [h1, hf1, show w1.cur = dg.take MSG_SIZE from hsv.cur]
          intro x hmem
          rcases List.mem_append.1 hmem with h | h
          · exact weaken (hx x h)
          · simp only [List.mem_singleton] at h; subst h
            obtain ⟨hh, hg, hse⟩ := ha.sealed
            refine ⟨env, dg, src, rd, t, hh.key, d, k, by simp [he], ha.size, rfl, ?_, (seals_take _ _ _ _).2 hse, rfl, rfl⟩
            have : (dg.take MSG_SIZE).take 8 = dg.take 8 := by simp [MSG_SIZE, List.take_take]
            simp only [this]
            exact hs _ _ hg
    cases hst with
    | started w env cfg senv s w' hdir hord h =>
      have hc := created_of_step hord h
      refine ⟨fun srv hs => ?_, ?_⟩
      · cases hs
        have hk := hK (.start env cfg senv) (by simp)
        exact hk _ (hc.ok _ rfl).2.1
      · simp only [startLog hc]; exact fun x h => weaken (ih2 x h)
    | startFailed w env cfg senv o w' hdir hord h hne =>
      refine ⟨by simp, ?_⟩
      simp only [startLog (created_of_step hord h)]; exact fun x h => weaken (ih2 x h)
    | packet w s env dg src rd tLog s' r w' h =>
      exact pk rfl (ih1 s rfl) ih2 (packetCase_of_step (hl s rfl).wf h)
    | packetCrash w s env dg src rd tLog w' h =>
      exact pk rfl (ih1 s rfl) ih2 (packetCase_of_step (hl s rfl).wf h)
    | kill w s => exact ⟨by simp, fun x h => weaken (ih2 x h)⟩
    | power w s w' h => exact ⟨by simp, by simp only [h.log]; exact fun x h => weaken (ih2 x h)⟩
    | others w w' s hfs hpend hlog => exact ⟨ih1, by simp only [hlog]; exact fun x h => weaken (ih2 x h)⟩

end Ruroco
