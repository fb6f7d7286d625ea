import Verif.Lemmas.Joint
import Verif.Lemmas.Floors
import Verif.Props.History
import Verif.Props.AtMostOnce
import Verif.Spec.Terms.Joint

/-! # C39: a client never locks itself out -/

namespace Ruroco

open Spec (datagrams wire counterOnDisk onDisk Seals Acceptable PowerLoss Survives Durable)

/-! ## Rejection as a replay -/

/-- Only an authenticated request whose counter is not above the stored one is called a replay. -/
theorem iteration_replayed (A : Aead) (s : Server) (hb : s.bl.Wf) (dg : List Byte) (src : Ip) (rd : Readings) (w : World) :
    wp (s.iteration A dg src rd) w (fun o _ => ∀ s', o = .ok (s', .error .replayed) →
      ∃ k pt d, Authenticates A s dg k pt ∧ ClientData.deserialize pt = .ok d ∧ s.bl.isCounterReplayed k d.counter = true) := by
  unfold Server.iteration
  simp only
  split
  · exact nofun
  · rename_i hl
    have hl94 : MSG_SIZE ≤ dg.length := by simp [MSG_SIZE] at hl ⊢; omega
    rcases hv : s.rl.check (normalizeIp src) s.cfg.maxPerIp s.cfg.maxGlobal rd with ⟨v, rl⟩
    simp only
    cases v with
    | error e =>
      rw [wp_pure]
      intro s' ho
      cases ho
      unfold RateLimiter.check at hv
      simp only at hv
      split at hv
      · cases hv
      · split at hv <;> cases hv
    | ok u =>
      simp only
      have htk : (dg.take MSG_SIZE).take KEY_ID_SIZE = dg.take 8 := by
        rw [List.take_take]; rfl
      cases hd : ({ s with rl } : Server).decryptMsg A (dg.take MSG_SIZE) with
      | error e =>
        simp only [wp_pure]
        intro s' ho
        cases ho
        unfold Server.decryptMsg decode at hd
        simp only [htk] at hd
        split at hd
        · cases hd
        · split at hd
          · rename_i e' hdec
            unfold CryptoHandler.decrypt at hdec
            simp only at hdec
            split at hdec
            · cases hdec; cases hd
            · split at hdec
              · cases hdec; cases hd
              · cases hdec
          · cases hd
      | ok p =>
        obtain ⟨k, pt⟩ := p
        simp only
        unfold Server.decryptMsg decode at hd
        simp only [htk] at hd
        split at hd
        · cases hd
        · rename_i h hg
          split at hd
          · cases hd
          · rename_i p hdec
            simp at hd
            obtain ⟨rfl, rfl⟩ := hd
            have hau : Authenticates A s dg (dg.take 8) p := ⟨hl94, rfl, h, hg, hdec⟩
            unfold Server.validateAndSend
            rw [wp_bind, wp_attempt]
            apply wp_nowNanos
            · intro now c hcl
              simp only
              cases hde : ClientData.deserialize p with
              | error e =>
                rw [wp_pure]
                intro s' ho
                cases ho
                unfold ClientData.deserialize at hde
                split at hde
                · cases hde
                · split at hde <;> cases hde
              | ok d =>
                simp only
                split
                · rename_i hr
                  rw [wp_pure]
                  exact fun _ _ => ⟨_, _, d, hau, hde, hr⟩
                · split
                  · rw [wp_pure]; intro s' ho; cases ho
                  · split
                    · rw [wp_pure]; intro s' ho; cases ho
                    · split
                      · rw [wp_pure]; intro s' ho; cases ho
                      · refine wp_act { s with rl } hb _ hau.key_length _ d _ _ ?_ ?_ ?_
                        · intro _ _ _ s' ho; cases ho
                        · exact fun _ _ => nofun
                        · intro w1 o w' _ _ s' ho
                          cases o <;> cases ho
            · intro c
              simp only
              rw [wp_pure]
              intro s' ho
              cases ho

/-! ## The joint invariant -/

/-- The file says nothing about key `k`, or a counter that is at most `T` or one of `W`. -/
def AtMostOr (pw : Bool) (k : List Byte) (T : Nat) (W : List U128) (f : Option File) : Prop :=
  ∀ file, f = some file → (pw = true → file.synced = true) ∧ ∀ m v, decodeBl file.data = some m → m.get k = some v → v.toNat ≤ T ∨ v ∈ W

theorem AtMostOr.of_holds {pw : Bool} {k : List Byte} {T : Nat} {W : List U128} {f : Option File} {m : BlMap} (h : DiskHolds f m)
    (hm : ∀ v, m.get k = some v → v.toNat ≤ T ∨ v ∈ W) : AtMostOr pw k T W f := by
  obtain ⟨file, m', rfl, h2, h3, h4, _⟩ := h
  intro g hg
  cases hg
  refine ⟨fun _ => h2, ?_⟩
  intro m1 v hd hv
  rw [h3] at hd
  cases hd
  rw [h4] at hv
  exact hm v hv

theorem AtMostOr.get {pw : Bool} {k : List Byte} {T : Nat} {W : List U128} {f : Option File} {m : BlMap} (h : AtMostOr pw k T W f) (hd : DiskHolds f m) :
    ∀ v, m.get k = some v → v.toNat ≤ T ∨ v ∈ W := by
  obtain ⟨file, m', rfl, h2, h3, h4, _⟩ := hd
  intro v hv
  exact (h file rfl).2 m' v h3 (by rw [h4, hv])

theorem AtMostOr.survives {k : List Byte} {T : Nat} {W : List U128} {f g : Option File} (h : AtMostOr true k T W f) (hs : Survives f g) :
    AtMostOr true k T W g := by
  cases hs with
  | absent => exact h
  | synced f hf => exact h
  | unsynced f g hf =>
    have := (h f rfl).1 rfl
    rw [hf] at this
    cases this

theorem AtMostOr.mono {pw : Bool} {k : List Byte} {T : Nat} {W W' : List U128} {f : Option File} (h : AtMostOr pw k T W f) (hW : ∀ c ∈ W, c ∈ W') :
    AtMostOr pw k T W' f :=
  fun file hf => ⟨(h file hf).1, fun m v hd hv => ((h file hf).2 m v hd hv).imp_right (hW v)⟩

/-- The server side of the invariant; `W`: counters the client has sent. -/
structure SInv (pw : Bool) (b : Bond) (dir : Path) (W : List U128) (s : Sys) : Prop where
  live : ∀ srv, s.srv = some srv → Live pw dir s.w srv
  bound : ∀ f ∈ cands pw s.w (blocklistPath dir), AtMostOr pw b.k b.T W f
  handlers : ∀ srv, s.srv = some srv → ∀ h, srv.handlers.get b.k = some h → h.key = b.key ∧ ∃ v, srv.bl.map.get b.k = some v

/-- What opens under the shared key carries a counter the client sent. -/
theorem counter_sent {A : Aead} (hA : A.Correct) {pw : Bool} {P : Path} {b : Bond} {W : List U128} {cw : World} (hc : CKey A pw P b W cw) {dg : List Byte}
    (hk : dg.take 8 = b.k) (hs : OnlySentBy A b cw dg) {d : ClientData} (hd : Seals A b.key dg d) : d.counter ∈ wire cw.log := by
  obtain ⟨ip, port, c, hm⟩ := hs hk ⟨d, hd⟩
  obtain ⟨h, iv, d', h1, h2, h3, h4, h5, h6⟩ := hc.made ip port c _ hm
  obtain ⟨e1, e2, pt', e3, e4, e5⟩ := packet_seals hA h1 h2 h3 h5
  have hid : h.id = b.k := by
    rw [← e2, List.take_take]
    exact hk
  rw [h6 hid] at e3
  obtain ⟨pt, f1, f2, f3⟩ := hd
  have hsl : ∀ i j, i ≤ j → j ≤ 94 → slice (dg.take 94) i j = slice dg i j := by
    intro i j hij hj
    unfold slice
    rw [List.take_drop, List.take_drop, List.take_take]
    congr 2
    omega
  rw [hsl 8 20 (by omega) (by omega), hsl 20 36 (by omega) (by omega), hsl 36 94 (by omega) (by omega), f1] at e3
  cases e3
  rw [f3] at e5
  cases e5
  show d'.counter ∈ _
  rw [h4]
  unfold wire
  rw [List.mem_filterMap]
  exact ⟨_, hm, rfl⟩

theorem SInv.packet {A : Aead} (hA : A.Correct) {pwc pw : Bool} {P : Path} {b : Bond} {dir : Path} {cw : World} (hc : CKey A pwc P b [] cw)
    {s : Server} {w w' : World} {env : Env} {dg : List Byte} {src : Ip} {o : Option Server} (hi : SInv pw b dir (wire cw.log) ⟨w, some s⟩)
    (hnet : OnlySentBy A b cw dg) (h : PacketCase A s dg src (w.withEnv env (dg.take MSG_SIZE)) o w') (hl : ∀ srv, o = some srv → Live pw dir w' srv) :
    SInv pw b dir (wire cw.log) ⟨w', o⟩ := by
  have hlive := hi.live s rfl
  have hp := hlive.path
  have hget := (hi.bound _ (by simp [cands])).get hlive.holds
  have hnew : ∀ {now : Nat} {d : ClientData}, Acceptable A s now src dg d →
      ∀ v, (s.bl.map.insert (dg.take 8) d.counter).get b.k = some v → v.toNat ≤ b.T ∨ v ∈ wire cw.log := by
    intro now d ha v hv
    rw [BlMap.get_insert] at hv
    split at hv
    · rename_i hk
      injection hv with hv
      obtain ⟨h, hg, hseal⟩ := ha.sealed
      have hkey := (hi.handlers s rfl h (by rw [hk]; exact hg)).1
      rw [hkey] at hseal
      rw [← hv]
      exact Or.inr (counter_sent hA hc hk.symm hnet hseal)
    · exact hget v hv
  have hknown : ∀ (d : ClientData) v, s.bl.map.get b.k = some v → ∃ v', (s.bl.map.insert (dg.take 8) d.counter).get b.k = some v' := by
    intro d v hv
    rw [BlMap.get_insert]
    split
    · exact ⟨_, rfl⟩
    · exact ⟨v, hv⟩
  cases h with
  | nothing s' _ hb hh hcf h1 h2 h3 =>
    have e1 : w'.fs = w.fs := h1
    have e2 : w'.pend = w.pend := h2
    refine ⟨hl, ?_, ?_⟩
    · simp only [cands, e1, e2]
      exact hi.bound
    · intro srv hsrv
      cases hsrv
      rw [hh, hb]
      exact hi.handlers s rfl
  | saved now d hclk ha c o ho _ w' hx hs =>
    refine ⟨hl, ?_, ?_⟩
    · rw [hp] at hs
      exact hs.cands (G := AtMostOr pw b.k b.T (wire cw.log)) (fun f hd => .of_holds hd (hnew ha)) hi.bound
    · intro srv hsrv
      obtain ⟨e1, e2, _⟩ := hx srv hsrv
      rw [e1, e2]
      exact hi.handlers s rfl
  | acted now d hclk ha c _ w1 w' o hx hs hsent =>
    refine ⟨hl, ?_, ?_⟩
    · simp only [cands, hsent.fs, hsent.pend]
      rw [hp] at hs
      exact hs.cands (G := AtMostOr pw b.k b.T (wire cw.log)) (fun f hd => .of_holds hd (hnew ha)) hi.bound
    · intro srv hsrv
      obtain ⟨e1, e2, _⟩ := hx srv hsrv
      rw [e1, e2]
      intro h hg
      obtain ⟨h1, v, h2⟩ := hi.handlers s rfl h hg
      exact ⟨h1, hknown d v h2⟩

theorem SInv.started {A : Aead} {pw : Bool} {b : Bond} {cfg : ServerCfg} {senv : StartEnv} {cw w w' : World} {env : Env} {o : Out Server}
    {x : Option Server} (hi : SInv pw b cfg.blDir (wire cw.log) ⟨w, none⟩) (ha : ServerAssumed A b cfg.blDir cw w (.start env cfg senv))
    (h : Created cfg senv (w.withEnv env []) o w') (hx : ∀ srv, x = some srv → o = .ok srv)
    (hl : ∀ srv, x = some srv → Live pw cfg.blDir w' srv) (hstat : .statFailed (blocklistPath cfg.blDir) ∉ w'.log) :
    SInv pw b cfg.blDir (wire cw.log) ⟨w', x⟩ := by
  obtain ⟨hkeys, hT⟩ := ha
  refine ⟨hl, ?_, ?_⟩
  · refine h.keeps pw (AtMostOr pw b.k b.T (wire cw.log)) hi.bound ?_
    intro m m' keys floor f ht hseed hfl hd _
    have hdisk : onDisk w (blocklistPath cfg.blDir) b.k = m.get b.k := taken_get (w := w.withEnv env []) ht hstat b.k
    refine .of_holds hd ?_
    intro v hv
    rw [hseed.get] at hv
    cases hg : m.get b.k with
    | some v' =>
      rw [hg] at hv
      injection hv with hv
      subst hv
      rcases ht with (⟨h1, rfl⟩ | ⟨g, h1, h2⟩) | ⟨_, h1⟩
      · cases hg
      · have h1 : w.fs (blocklistPath cfg.blDir) = some g := h1
        exact (hi.bound (w.fs (blocklistPath cfg.blDir)) (by simp [cands]) g h1).2 m v' h2 hg
      · exact absurd h1 hstat
    | none =>
      rw [hg] at hv hdisk
      simp only [Option.none_or] at hv
      split at hv
      · rename_i hk
        injection hv with hv
        rcases hfl with hfl | hfl
        · left
          rw [← hv]
          exact hT hdisk floor hfl
        · rw [hfl] at hk; cases hk
      · cases hv
  · intro srv hsrv
    obtain ⟨_, h2, _, _, _, _, _, _, m, floor, _, _, hseed⟩ := h.ok srv (hx srv hsrv)
    intro hd hg
    refine ⟨hkeys _ hd h2 hg, ?_⟩
    rw [hseed.get]
    have hm : b.k ∈ srv.handlers.map Prod.fst := List.mem_map.2 ⟨_, handlers_mem_of_get hg, rfl⟩
    rw [if_pos hm]
    cases m.get b.k <;> exact ⟨_, rfl⟩

theorem SInv.step {A : Aead} (hA : A.Correct) {pwc pw : Bool} {P : Path} {b : Bond} {dir : Path} {cw : World} (hc : CKey A pwc P b [] cw)
    {s s' : Sys} {e : Ev} (hi : SInv pw b dir (wire cw.log) s) (ha : ServerAssumed A b dir cw s.w e) (hst : Step A dir s e s')
    (hpw : e = .power → pw = true) (hsync : SyncOk pw dir s'.w.log) (hstat : .statFailed (blocklistPath dir) ∉ s'.w.log) :
    SInv pw b dir (wire cw.log) s' := by
  have hl := Live.step hst hi.live hsync
  cases hst with
  | started w env cfg senv s w' hdir hord h =>
    subst hdir
    exact hi.started ha (created_of_step hord h) (fun srv h => by cases h; rfl) hl hstat
  | startFailed w env cfg senv o w' hdir hord h hne =>
    subst hdir
    exact hi.started ha (created_of_step hord h) nofun hl hstat
  | packet w s env dg src rd tLog s' r w' h => exact hi.packet hA hc ha (packetCase_of_step (hi.live _ rfl).wf h) hl
  | packetCrash w s env dg src rd tLog w' h => exact hi.packet hA hc ha (packetCase_of_step (hi.live _ rfl).wf h) hl
  | kill w s => exact ⟨nofun, hi.bound, nofun⟩
  | power w s w' h =>
    have hpw := hpw rfl
    subst hpw
    refine ⟨nofun, ?_, nofun⟩
    simp only [cands, h.nothingPending]
    intro f hm
    simp at hm; subst hm
    obtain ⟨g, hg, hs⟩ := h.entries (blocklistPath dir)
    exact (hi.bound g (by simpa [cands] using hg)).survives hs
  | others w w' s hfs hpend hlog =>
    refine ⟨hl, ?_, hi.handlers⟩
    simp only [cands, hfs, hpend]
    exact hi.bound

/-! ## Joint histories -/

theorem JRun.server {A : Aead} {hash : List Char → U64} {b : Bond} {cdir sdir : Path} {j j' : Joint} {evs : List JEv}
    (h : JRun A hash b cdir sdir j evs j') : ∃ sevs, Run A sdir j.sys sevs j'.sys := by
  induction h with
  | nil => exact ⟨[], .nil _⟩
  | snoc hr hst ih =>
    obtain ⟨sevs, h⟩ := ih
    cases hst with
    | client e cw' ha hs => exact ⟨sevs, h⟩
    | server e sys' ha hs => exact ⟨sevs ++ [e], h.snoc hs⟩

/-- The joint invariant. -/
structure JInv (A : Aead) (pwc pws : Bool) (b : Bond) (cdir sdir : Path) (j : Joint) : Prop where
  key : CKey A pwc (counterPath cdir) b [] j.cw
  inv : CInvIf A pwc (counterPath cdir) [] [] j.cw
  srv : SInv pws b sdir (wire j.cw.log) j.sys

theorem CKey.forget {A : Aead} {pw : Bool} {P : Path} {b : Bond} {W : List U128} {w : World} (h : CKey A pw P b W w) : CKey A pw P b [] w :=
  ⟨⟨_, rfl⟩, h.floor, h.above, h.made⟩

theorem CKey.remember {A : Aead} {pw : Bool} {P : Path} {b : Bond} {W : List U128} {w : World} (h : CKey A pw P b W w) : CKey A pw P b (wire w.log) w :=
  ⟨⟨[], by simp⟩, h.floor, h.above, h.made⟩

theorem JRun.inv {A : Aead} (hA : A.Correct) {hash : List Char → U64} {b : Bond} {cdir sdir : Path} {j j' : Joint} {evs : List JEv} {pwc pws : Bool}
    (h : JRun A hash b cdir sdir j evs j') (h0 : j.sys.srv = none) (hi : JInv A pwc pws b cdir sdir j) (hpc : .client .power ∈ evs → pwc = true)
    (hps : .server .power ∈ evs → pws = true) (hsync : SyncOk pws sdir j'.sys.w.log) (hstat : .statFailed (blocklistPath sdir) ∉ j'.sys.w.log) :
    JInv A pwc pws b cdir sdir j' := by
  induction h with
  | nil => exact hi
  | snoc hr hst ih =>
    have hpc' := fun hm => hpc (List.mem_append_left _ hm)
    have hps' := fun hm => hps (List.mem_append_left _ hm)
    cases hst with
    | client e cw' ha hs =>
      have h1 := ih hpc' hps' hsync hstat
      obtain ⟨h2, h3⟩ := hs.keeps ha (fun he => hpc (by simp [he])) h1.key.remember h1.inv
      refine ⟨h2.forget, h3, h1.srv.live, ?_, h1.srv.handlers⟩
      intro f hf
      obtain ⟨l, hl⟩ := h2.grows
      exact (h1.srv.bound f hf).mono (fun c hc => by rw [hl]; exact List.mem_append_left _ hc)
    | server e sys' ha hs =>
      obtain ⟨sevs, hrun⟩ := hr.server
      have hwf := live_run_false hrun (fun srv h => by rw [h0] at h; cases h)
      obtain ⟨l, hl⟩ := hs.log_sub (fun srv h => (hwf srv h).wf)
      simp only at hsync hstat
      have h1 := ih hpc' hps' (by rw [hl] at hsync; exact hsync.mono) (fun hm => hstat (by rw [hl]; exact List.mem_append_left _ hm))
      exact ⟨h1.key, h1.inv, h1.srv.step hA h1.key ha hs (fun he => hps (by simp [he])) hsync hstat⟩

theorem JInit.inv {A : Aead} {b : Bond} {cdir sdir : Path} {j : Joint} (h : JInit b cdir sdir j) (pwc pws : Bool) : JInv A pwc pws b cdir sdir j := by
  have hnoudp : ∀ ip port c bytes, .udp ip port c bytes ∉ j.cw.log := by
    intro ip port c bytes hm
    have : c ∈ wire j.cw.log := by
      unfold wire
      rw [List.mem_filterMap]
      exact ⟨_, hm, rfl⟩
    rw [h.nothingSent] at this
    cases this
  refine ⟨⟨⟨_, rfl⟩, ?_, by rw [h.nothingSent]; simp, fun ip port c bytes hm => absurd hm (hnoudp _ _ _ _)⟩, ?_, ?_, ?_, ?_⟩
  · intro f hf
    unfold cands at hf
    rw [h.counterSafe.1] at hf
    simp at hf
    subst hf
    rcases h.counter with hn | ⟨v, hv, hT⟩
    · exact Or.inl hn
    · right
      unfold counterOnDisk at hv
      split at hv
      · cases hv
      · rename_i file hfile
        split at hv
        · rename_i h16
          injection hv with hv
          exact ⟨file, hfile, fun _ => h.counterSafe.2 file hfile, h16, by omega⟩
        · cases hv
  · intro _
    exact ⟨by rw [h.nothingSent]; exact .nil, by rw [h.nothingSent]; simp, by simp, fun ip port c bytes hm => absurd hm (hnoudp _ _ _ _)⟩
  · intro srv hs
    rw [h.stopped] at hs
    cases hs
  · intro f hf
    unfold cands at hf
    rw [h.storedSafe.1] at hf
    simp at hf
    subst hf
    intro file hfile
    refine ⟨fun _ => h.storedSafe.2 file hfile, ?_⟩
    intro m v hd hv
    exact Or.inl (h.stored v (by simp [onDisk, hfile, hd, hv]))
  · intro srv hs
    rw [h.stopped] at hs
    cases hs

/-- **C39.** One client, the only user of its key, and one server, set up such that the server's first counter for the key is not above the client's
first one (`T` lies in between). After every history – sends and reseeds that complete, fail or die anywhere, server starts, kills and crashes, power
losses on both sides, and every datagram the network may deliver, except forged ones – each datagram of the client's next send carries a counter above
the one the server has stored for the key, and the running server, on receiving it next, does not reject it as a replay. -/
theorem C39_never_locked_out (A : Aead) (hA : A.Correct) (hash : List Char → U64) (b : Bond) (cdir sdir : Path) (j0 j : Joint) (evs : List JEv)
    (h0 : JInit b cdir sdir j0) (hr : JRun A hash b cdir sdir j0 evs j)
    -- the next send
    (env : Env) (held : Bool) (cmd : SendCmd) (senv : SendEnv) (cw' : World)
    (hnext : JStep A hash b cdir sdir j (.client (.send env held cmd senv)) ⟨cw', j.sys⟩) (hcov : JCovered cdir sdir evs ⟨cw', j.sys⟩)
    (l : List Event) (hl : cw'.log = j.cw.log ++ l) (ip : Ip) (port : Nat) (c : U128) (bytes : List Byte) (hm : .udp ip port c bytes ∈ l) :
    (∀ v, onDisk j.sys.w (blocklistPath sdir) b.k = some v → v.toNat < c.toNat) ∧
    ∀ s, j.sys.srv = some s → (∀ v, s.bl.map.get b.k = some v → v.toNat < c.toNat) ∧
      (bytes.take 8 = b.k → ∀ (src : Ip) (rd : Readings) (w w' : World) (s' : Server), s.iteration A bytes src rd w ≠ (.ok (s', .error .replayed), w')) := by
  obtain ⟨pwc, hpc, hsc⟩ : ∃ pwc, (.client .power ∈ evs → pwc = true) ∧ SyncedAt pwc (counterPath cdir) cw'.log := by
    by_cases h : .client .power ∈ evs
    · exact ⟨true, fun _ => rfl, fun _ => hcov.client h⟩
    · exact ⟨false, fun h' => absurd h' h, nofun⟩
  obtain ⟨pws, hps, hss⟩ : ∃ pws, (.server .power ∈ evs → pws = true) ∧ SyncOk pws sdir j.sys.w.log := by
    by_cases h : .server .power ∈ evs
    · exact ⟨true, fun _ => rfl, fun _ => hcov.server h⟩
    · exact ⟨false, fun h' => absurd h' h, nofun⟩
  have hj := hr.inv hA h0.stopped (h0.inv pwc pws) hpc hps hss hcov.stat
  cases hnext with
  | client _ _ ha hst =>
  obtain ⟨hk, hinv⟩ := hst.keeps ha nofun hj.key.remember hj.inv
  have hcw : c ∈ wire l := by
    unfold wire
    rw [List.mem_filterMap]
    exact ⟨_, hm, rfl⟩
  have hold : ∀ x ∈ wire j.cw.log, x.toNat < c.toNat := by
    have := (hinv hsc).increasing
    rw [hl, wire_append, List.pairwise_append] at this
    exact fun x hx => this.2.2 x hx c hcw
  have hT : b.T < c.toNat := hk.above c (by rw [hl, wire_append]; exact List.mem_append_right _ hcw)
  have key : ∀ v : U128, v.toNat ≤ b.T ∨ v ∈ wire j.cw.log → v.toNat < c.toNat := by
    rintro v (hv | hv)
    · omega
    · exact hold v hv
  refine ⟨?_, ?_⟩
  · intro v hv
    unfold onDisk at hv
    split at hv
    · cases hv
    · rename_i f hf
      cases hd : decodeBl f.data with
      | none => rw [hd] at hv; cases hv
      | some m =>
        rw [hd] at hv
        exact key v ((hj.srv.bound _ (by unfold cands; simp) f hf).2 m v hd hv)
  · intro s hs
    have hmem : ∀ v, s.bl.map.get b.k = some v → v.toNat < c.toNat := fun v hv =>
      key v ((hj.srv.bound _ (by unfold cands; simp)).get (hj.srv.live s hs).holds v hv)
    refine ⟨hmem, ?_⟩
    intro hid src rd w w' s' hit
    have := iteration_replayed A s (hj.srv.live s hs).wf bytes src rd w
    unfold wp at this
    rw [hit] at this
    obtain ⟨k, pt, d, hau, hde, hrep⟩ := this s' rfl
    have hk' : k = b.k := by rw [hau.2.1]; exact hid
    obtain ⟨_, h, hg, hs1⟩ := authenticates_iff.1 ⟨k, pt, hau, hde⟩
    rw [hid] at hg
    obtain ⟨hkey, v, hv⟩ := hj.srv.handlers s hs h hg
    rw [hkey] at hs1
    -- the datagram is the client's, so its counter is `c`
    obtain ⟨h', iv, d', e1, e2, e3, e4, e5, e6⟩ := hk.made ip port c bytes (by rw [hl]; exact List.mem_append_right _ hm)
    obtain ⟨f1, f2, hseal⟩ := packet_seals hA e1 e2 e3 e5
    have hid' : h'.id = b.k := by rw [← f2]; exact hid
    rw [e6 hid'] at hseal
    obtain ⟨pt1, g1, _, g2⟩ := hs1
    obtain ⟨pt2, g3, _, g4⟩ := hseal
    rw [g1] at g3
    cases g3
    rw [g2] at g4
    cases g4
    rw [hk', isCounterReplayed_false.2 ⟨v, hv, by show v.toNat < d'.counter.toNat; rw [e4]; exact hmem v hv⟩] at hrep
    cases hrep

/-! ## A concrete history: the server starts at 1000, the client (counter 5000) sends to two addresses, both datagrams arrive. -/

def exBond : Bond := ⟨exKey.id, exKey.key, 1000⟩

abbrev exClient0 : World := exDisk (some (beBytes 16 5000)) []

def exEnvC : Env := ⟨[], List.replicate 9 (some 1763290000000000000)⟩

theorem exClient0_env : exClient0.withEnv exEnvC [] = exDisk (some (beBytes 16 5000)) [] := rfl

def exClient1 : World := (runSend toyAead exHash "/c".toList false exOpen (exClientEnv exClientKey) (exDisk (some (beBytes 16 5000)) [])).2

theorem CStep.of_send (A : Aead) (hash : List Char → U64) (dir : Path) (w : World) (env : Env) (held : Bool) (cmd : SendCmd) (senv : SendEnv) :
    CStep A hash dir w (.send env held cmd senv) (runSend A hash dir held cmd senv (w.withEnv env [])).2 := .send _ _ _ _ _ _ _ rfl

theorem exClient1_step : CStep toyAead exHash "/c".toList exClient0 (.send exEnvC false exOpen (exClientEnv exClientKey)) exClient1 := by
  have h := CStep.of_send toyAead exHash "/c".toList exClient0 exEnvC false exOpen (exClientEnv exClientKey)
  rw [exClient0_env] at h
  unfold exClient1
  exact h

def exSendEv : CEv := .send exEnvC false exOpen (exClientEnv exClientKey)

def exSys1 : Sys := exec toyAead ⟨exEmpty, none⟩ exDualStart

def exSys2 : Sys := exec toyAead exSys1 (exArrival exBytes4)

def exSys3 : Sys := exec toyAead exSys2 (exArrival exBytes6)

theorem exSendAssumed (cw : World) (h : cw.fs (counterPath "/c".toList) ≠ none) : ClientAssumed exBond "/c".toList cw exSendEv := by
  refine ⟨?_, ?_, fun hn => absurd hn h⟩
  · intro t h ht hc hid
    cases ht
    have : CryptoHandler.create (trim exClientKey) = .ok exSenderKey := by decide +kernel
    rw [this] at hc
    cases hc
    rfl
  · intro i iv hiv
    cases hiv
    simp

theorem mem_datagrams {log : List Event} {x : Ip × Nat × U128 × List Byte} (h : x ∈ datagrams log) : .udp x.1 x.2.1 x.2.2.1 x.2.2.2 ∈ log := by
  unfold datagrams at h
  rw [List.mem_filterMap] at h
  obtain ⟨e, he, hx⟩ := h
  split at hx
  · cases hx
    exact he
  · cases hx

theorem exClient1_sent : exSent = datagrams exClient1.log := by
  unfold exSent exClient1
  exact Eq.refl _

theorem exJoint_init : JInit exBond "/c".toList "/s".toList ⟨exClient0, ⟨exEmpty, none⟩⟩ where
  nothingSent := rfl
  counterSafe := by
    refine ⟨rfl, ?_⟩
    intro f hf
    have : exClient0.fs (counterPath "/c".toList) = some ⟨beBytes 16 5000, 0o644, true, .creator⟩ := by decide +kernel
    rw [this] at hf
    cases hf
    rfl
  counter := Or.inr ⟨5000, by decide +kernel, by decide⟩
  stopped := rfl
  storedSafe := ⟨rfl, nofun⟩
  stored := nofun

theorem exDual_split : Enabled toyAead "/s".toList ⟨exEmpty, none⟩ exDualStart ∧
    Enabled toyAead "/s".toList (exec toyAead ⟨exEmpty, none⟩ exDualStart) (exArrival exBytes4) ∧
    Enabled toyAead "/s".toList (exec toyAead (exec toyAead ⟨exEmpty, none⟩ exDualStart) (exArrival exBytes4)) (exArrival exBytes6) := by
  have h := exDual_enabled
  unfold exDual exArrivals at h
  simp only [AllEnabled] at h
  exact ⟨h.1, h.2.1, h.2.2.1⟩

theorem exStep1 : Step toyAead "/s".toList ⟨exEmpty, none⟩ exDualStart exSys1 := by
  unfold exSys1
  exact step_exec exDual_split.1

theorem exStep2 : Step toyAead "/s".toList exSys1 (exArrival exBytes4) exSys2 := by
  unfold exSys2 exSys1
  exact step_exec exDual_split.2.1

theorem exStep3 : Step toyAead "/s".toList exSys2 (exArrival exBytes6) exSys3 := by
  unfold exSys3 exSys2 exSys1
  exact step_exec exDual_split.2.2

theorem exNet (x : Ip × Nat × U128 × List Byte) (hx : x ∈ exSent) (ht : x.2.2.2.take 94 = x.2.2.2) (env : Env) (src : Ip) (rd : Readings) (t : Nat) (sw : World) :
    ServerAssumed toyAead exBond "/s".toList exClient1 sw (.packet env x.2.2.2 src rd t) := by
  unfold ServerAssumed
  intro _ _
  refine ⟨x.1, x.2.1, x.2.2.1, ?_⟩
  rw [ht]
  exact mem_datagrams (by rw [← exClient1_sent]; exact hx)

theorem exStartAssumed (cw sw : World) : ServerAssumed toyAead exBond "/s".toList cw sw exDualStart := by
  refine ⟨?_, ?_⟩
  · intro hs h hc hg
    have : createCryptoHandlers exDir = .ok [(exKey.id, exKey)] := by decide +kernel
    rw [this] at hc
    cases hc
    have : Handlers.get [(exKey.id, exKey)] exBond.k = some exKey := by decide +kernel
    rw [this] at hg
    cases hg
    rfl
  · intro _ t ht
    simp at ht
    rw [ht]
    decide

theorem exClient0_counter : exClient0.fs (counterPath "/c".toList) ≠ none := by
  have : exClient0.fs (counterPath "/c".toList) = some ⟨beBytes 16 5000, 0o644, true, .creator⟩ := by decide +kernel
  rw [this]
  exact nofun

theorem exNet4 (sw : World) : ServerAssumed toyAead exBond "/s".toList exClient1 sw (exArrival exBytes4) := by
  have hx : (.v4 0x0a000002, 80, 5001, exBytes4) ∈ exSent := by rw [exSent_eq]; exact List.mem_cons_self
  have ht : exBytes4.take 94 = exBytes4 := by decide +kernel
  unfold exArrival
  exact exNet (.v4 0x0a000002, 80, 5001, exBytes4) hx ht _ _ _ _ sw

theorem exNet6 (sw : World) : ServerAssumed toyAead exBond "/s".toList exClient1 sw (exArrival exBytes6) := by
  have hx : (.v6 1, 80, 5002, exBytes6) ∈ exSent := by rw [exSent_eq]; exact List.mem_cons_of_mem _ List.mem_cons_self
  have ht : exBytes6.take 94 = exBytes6 := by decide +kernel
  unfold exArrival
  exact exNet (.v6 1, 80, 5002, exBytes6) hx ht _ _ _ _ sw

theorem JRun.of_four {A : Aead} {hash : List Char → U64} {b : Bond} {cdir sdir : Path} {c c' : World} {s s1 s2 s3 : Sys} {e1 e2 e3 : Ev} {ce : CEv}
    (a1 : ServerAssumed A b sdir c s.w e1) (h1 : Step A sdir s e1 s1) (a2 : ClientAssumed b cdir c ce) (h2 : CStep A hash cdir c ce c')
    (a3 : ServerAssumed A b sdir c' s1.w e2) (h3 : Step A sdir s1 e2 s2) (a4 : ServerAssumed A b sdir c' s2.w e3) (h4 : Step A sdir s2 e3 s3) :
    JRun A hash b cdir sdir ⟨c, s⟩ [.server e1, .client ce, .server e2, .server e3] ⟨c', s3⟩ :=
  ((((JRun.nil ⟨c, s⟩).snoc (.server _ _ _ a1 h1)).snoc (.client _ _ _ a2 h2)).snoc (.server _ _ _ a3 h3)).snoc (.server _ _ _ a4 h4)

/-- Non-vacuity of C39: a server starts, a client sends, both datagrams arrive. -/
theorem exJoint_run : JRun toyAead exHash exBond "/c".toList "/s".toList ⟨exClient0, ⟨exEmpty, none⟩⟩
    [.server exDualStart, .client exSendEv, .server (exArrival exBytes4), .server (exArrival exBytes6)] ⟨exClient1, exSys3⟩ :=
  JRun.of_four (exStartAssumed exClient0 exEmpty) exStep1 (exSendAssumed exClient0 exClient0_counter) exClient1_step
    (exNet4 exSys1.w) exStep2 (exNet6 exSys2.w) exStep3

/-- The server has accepted both datagrams (the stored counter is the client's), … -/
theorem exJoint_stored : exSys3.srv.map (fun s => s.bl.map.get exKey.id) = some (some 5002) := by decide +kernel

/-- … and the next send uses higher counters. -/
theorem exJoint_next : wire (runSend toyAead exHash "/c".toList false exOpen (exClientEnv exClientKey)
    (exClient1.withEnv exEnvC [])).2.log = [5001, 5002, 5003, 5004] := by
  decide +kernel

end Ruroco
