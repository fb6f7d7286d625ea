import Verif.Lemmas.Start
import Verif.Lemmas.Handled
import Verif.Model.History
import Verif.Props.Server

/-! Invariants of histories. -/

namespace Ruroco

open Spec (Acceptable Seals RateOk forwards message PowerLoss Survives)

/-- Outcome of one datagram in the loop: as `Handled`, apart from the error throttle. -/
def HandledD (A : Aead) (s : Server) (dg : List Byte) (src : Ip) (rd : Readings) (w : World)
    (o : Out (Server × Except Err Unit)) (w' : World) : Prop :=
  ∃ o1, Handled A s dg src rd w o1 w' ∧
    ((o = .crash ∧ o1 = .crash) ∨ ∃ s1 s2 r, o1 = .ok (s1, r) ∧ o = .ok (s2, r) ∧ ∃ t, s2 = { s1 with throttle := t })

theorem handleDatagram_spec (A : Aead) (s : Server) (hb : s.bl.Wf) (dg : List Byte) (src : Ip) (rd : Readings) (t : Nat) (w : World) :
    wp (s.handleDatagram A dg src rd t) w (HandledD A s dg src rd w) := by
  unfold Server.handleDatagram
  rw [wp_bind]
  refine wp_mono (iteration_handled A s hb dg src rd w) ?_
  intro o w' h
  cases o with
  | err e => cases h
  | crash => exact ⟨_, h, Or.inl ⟨rfl, rfl⟩⟩
  | ok x =>
    obtain ⟨s1, r⟩ := x
    cases r with
    | error e => exact ⟨_, h, Or.inr ⟨s1, _, _, rfl, rfl, _, rfl⟩⟩
    | ok u => exact ⟨_, h, Or.inr ⟨s1, _, _, rfl, rfl, _, rfl⟩⟩

/-- Case analysis of a datagram reduced to what happens to files, trace and state: nothing, a save, or a save and a forward. -/
inductive PacketCase (A : Aead) (s : Server) (dg : List Byte) (src : Ip) (w : World) : Option Server → World → Prop
  | nothing (s' : Server) (w' : World) (hb : s'.bl = s.bl) (hh : s'.handlers = s.handlers) (hc : s'.cfg = s.cfg)
      (h1 : w'.fs = w.fs) (h2 : w'.pend = w.pend) (h3 : w'.log = w.log) : PacketCase A s dg src w (some s') w'
  | saved (now : U128) (d : ClientData) (hclk : some now ∈ w.clock) (ha : Acceptable A s now.toNat src dg d)
      (c : List (Option U128)) (o : Out Unit) (ho : o ≠ .ok ()) (s' : Option Server) (w' : World)
      (hs' : ∀ x, s' = some x → x.bl = s.bl ∧ x.handlers = s.handlers ∧ x.cfg = s.cfg ∧ ∃ e, o = .err e)
      (hs : Saved s.bl.path (s.bl.map.insert (dg.take 8) d.counter) o { w with clock := c } w') : PacketCase A s dg src w s' w'
  | acted (now : U128) (d : ClientData) (hclk : some now ∈ w.clock) (ha : Acceptable A s now.toNat src dg d)
      (c : List (Option U128)) (s' : Option Server) (w1 w' : World) (o : Out Unit)
      (hs' : ∀ x, s' = some x → x.bl = s.bl.upsert (dg.take 8) d.counter ∧ x.handlers = s.handlers ∧ x.cfg = s.cfg)
      (hs : Saved s.bl.path (s.bl.map.insert (dg.take 8) d.counter) (.ok ()) { w with clock := c } w1)
      (hf : Sent d.counter { cmdHash := d.cmdHash, ip := d.srcIp.getD (normalizeIp src) } o w1 w') : PacketCase A s dg src w s' w'

/-- The server left after an outcome. -/
def Out.server : Out (Server × Except Err Unit) → Option Server
  | .ok (s, _) => some s
  | _ => none

theorem packetCase_of_handled {A : Aead} {s : Server} {dg : List Byte} {src : Ip} {rd : Readings} {w w' : World}
    {o : Out (Server × Except Err Unit)} (h : HandledD A s dg src rd w o w') : PacketCase A s dg src w o.server w' := by
  obtain ⟨o1, h, ho⟩ := h
  cases h with
  | rejected e rl c =>
    rcases ho with ⟨_, h⟩ | ⟨s1, s2, r, h, rfl, t, rfl⟩
    · cases h
    · cases h
      exact .nothing _ _ rfl rfl rfl rfl rfl rfl
  | saveFailed rl now c d e _ ha hs =>
    rcases ho with ⟨_, h⟩ | ⟨s1, s2, r, h, rfl, t, rfl⟩
    · cases h
    · cases h
      exact .saved now d (by rw [ha.clock]; simp) ha.acc c _ (by simp) _ _ (fun x hx => by cases hx; exact ⟨rfl, rfl, rfl, e, rfl⟩) hs
  | saveCrashed rl now c d _ ha hs =>
    rcases ho with ⟨rfl, h⟩ | ⟨s1, s2, r, h, rfl, t, rfl⟩
    · exact .saved now d (by rw [ha.clock]; simp) ha.acc c _ (by simp) _ _ (fun x hx => by cases hx) hs
    · cases h
  | acted rl now c d w1 _ ha hs hf =>
    rcases ho with ⟨_, h⟩ | ⟨s1, s2, r, h, rfl, t, rfl⟩
    · cases h
    · cases h
      exact .acted now d (by rw [ha.clock]; simp) ha.acc c _ w1 _ _ (fun x hx => by cases hx; exact ⟨rfl, rfl, rfl⟩) hs hf
  | sendCrashed rl now c d w1 _ ha hs hf =>
    rcases ho with ⟨rfl, h⟩ | ⟨s1, s2, r, h, rfl, t, rfl⟩
    · exact .acted now d (by rw [ha.clock]; simp) ha.acc c _ w1 _ _ (fun x hx => by cases hx) hs hf
    · cases h

theorem packetCase_of_step {A : Aead} {s : Server} (hb : s.bl.Wf) {dg : List Byte} {src : Ip} {rd : Readings} {t : Nat} {w w' : World}
    {o : Out (Server × Except Err Unit)} (h : s.handleDatagram A dg src rd t w = (o, w')) : PacketCase A s dg src w o.server w' := by
  have := handleDatagram_spec A s hb dg src rd t w
  unfold wp at this
  rw [h] at this
  exact packetCase_of_handled this

theorem created_of_step {cfg : ServerCfg} {senv : StartEnv} (hord : ∀ m, (senv.order m).Perm m) {w w' : World} {o : Out Server}
    (h : Server.create cfg senv w = (o, w')) : Created cfg senv w o w' := by
  have := create_spec cfg senv hord w
  unfold wp at this
  rw [h] at this
  exact this

/-! ## Invariant of the running server -/

/-- A running server's memory agrees with its file. -/
structure Live (pw : Bool) (dir : Path) (w : World) (s : Server) : Prop where
  path : s.bl.path = blocklistPath dir
  wf : s.bl.Wf
  holds : DiskHolds (w.fs (blocklistPath dir)) s.bl.map
  pend : pw = true → w.pend (blocklistPath dir) = []

theorem Step.log_sub {A : Aead} {dir : Path} {s s' : Sys} {e : Ev} (h : Step A dir s e s')
    (hl : ∀ srv, s.srv = some srv → srv.bl.Wf) : ∃ l, s'.w.log = s.w.log ++ l := by
  have pk : ∀ {s : Server} {dg : List Byte} {src : Ip} {w w' : World} {o : Option Server}, PacketCase A s dg src w o w' →
      ∃ l, w'.log = w.log ++ l := by
    intro s dg src w w' o h
    cases h with
    | nothing _ _ _ _ _ _ _ h3 => exact ⟨[], by simp [h3]⟩
    | saved now d hclk ha c o ho s' w' hs' hs => obtain ⟨l, h, _⟩ := hs.log; exact ⟨l, h⟩
    | acted now d hclk ha c s' w1 w' o hs' hs hf =>
      obtain ⟨l, h, _⟩ := hs.log
      obtain ⟨n, l2, _, h2, _⟩ := hf.log
      exact ⟨l ++ (List.replicate n .connect ++ l2), by rw [h2, h]; simp⟩
  cases h with
  | started w env cfg senv s w' hdir hord h =>
    obtain ⟨l, h, _⟩ := (created_of_step hord h).log; exact ⟨l, h⟩
  | startFailed w env cfg senv o w' hdir hord h hne =>
    obtain ⟨l, h, _⟩ := (created_of_step hord h).log; exact ⟨l, h⟩
  | packet w s env dg src rd tLog s' r w' h => exact pk (w := w.withEnv env _) (packetCase_of_step (hl _ rfl) h)
  | packetCrash w s env dg src rd tLog w' h => exact pk (w := w.withEnv env _) (packetCase_of_step (hl _ rfl) h)
  | kill w s => exact ⟨[], by simp⟩
  | power w s w' h => exact ⟨[], by simp [h.log]⟩
  | others w w' s hfs hpend hlog => exact ⟨[], by simp [hlog]⟩

/-- Nothing in the trace says that the fsync of the directory failed (needed only if power losses are considered). -/
def SyncOk (pw : Bool) (dir : Path) (log : List Event) : Prop := pw = true → .dirSyncFailed (blocklistPath dir) ∉ log

theorem SyncOk.mono {pw : Bool} {dir : Path} {a b : List Event} (h : SyncOk pw dir (a ++ b)) : SyncOk pw dir a :=
  fun hp hm => h hp (List.mem_append_left _ hm)

/-- After an accepted packet was saved, all states the file can be found in are the new one. -/
theorem cands_after_save {pw : Bool} {P : Path} {m : BlMap} {w w' : World} (h : Saved P m (.ok ()) w w')
    (hs : pw = true → .dirSyncFailed P ∉ w'.log) : ∀ f ∈ cands pw w' P, DiskHolds f m := by
  intro f hf
  rcases h.result with ⟨_, _, h3⟩ | ⟨h1, _, _, h4⟩
  · exact absurd rfl h3
  · unfold cands at hf
    rcases List.mem_cons.1 hf with rfl | hf
    · exact h1
    · cases pw with
      | false => simp at hf
      | true => rw [h4 rfl (hs rfl)] at hf; simp at hf

theorem diskHolds_after_save {P : Path} {m : BlMap} {w w' : World} (h : Saved P m (.ok ()) w w') : DiskHolds (w'.fs P) m := by
  rcases h.result with ⟨_, _, h3⟩ | ⟨h1, _⟩
  · exact absurd rfl h3
  · exact h1

theorem insert_wf_of_acceptable {A : Aead} {s : Server} (hb : s.bl.Wf) {now : Nat} {src : Ip} {dg : List Byte} {d : ClientData}
    (ha : Acceptable A s now src dg d) : (s.bl.upsert (dg.take 8) d.counter).Wf := by
  refine ⟨hb.map.insert ?_ _, hb.order⟩
  have := ha.size
  rw [List.length_take]; omega

/-- A packet keeps the running server and its file in agreement. -/
theorem Live.packet {A : Aead} {pw : Bool} {dir : Path} {s : Server} {w0 w w' : World} {dg : List Byte} {src : Ip} {o : Option Server}
    (hfs : w.fs = w0.fs) (hpend : w.pend = w0.pend)
    (hl : Live pw dir w0 s) (h : PacketCase A s dg src w o w') (hsync : SyncOk pw dir w'.log) :
    ∀ s', o = some s' → Live pw dir w' s' := by
  intro s' hs'
  have hp := hl.path
  cases h with
  | nothing _ _ hb hh hc h1 h2 h3 =>
    cases hs'
    exact ⟨by rw [hb, hp], by rw [hb]; exact hl.wf, by rw [h1, hb, hfs]; exact hl.holds, fun h => by rw [h2, hpend]; exact hl.pend h⟩
  | saved now d hclk ha c o ho _ w' hx hs =>
    obtain ⟨e1, e2, e3, e, rfl⟩ := hx s' hs'
    rcases hs.result with ⟨h1, h2, _⟩ | ⟨_, _, h3, _⟩
    · rw [hp] at h1 h2
      refine ⟨by rw [e1, hp], by rw [e1]; exact hl.wf, ?_, ?_⟩
      · rw [h1, e1]; simp only [hfs]; exact hl.holds
      · intro h; rw [h2]; simp only [hpend]; exact hl.pend h
    · rcases h3 with h3 | h3 <;> cases h3
  | acted now d hclk ha c _ w1 w' o hx hs hf =>
    obtain ⟨e1, e2, e3⟩ := hx s' hs'
    have hsync1 : pw = true → .dirSyncFailed s.bl.path ∉ w1.log := by
      intro h hm
      obtain ⟨n, l2, _, h2, _⟩ := hf.log
      refine hsync h ?_
      rw [h2, ← hp]
      exact List.mem_append_left _ (List.mem_append_left _ hm)
    refine ⟨by rw [e1]; exact hp, by rw [e1]; exact insert_wf_of_acceptable hl.wf ha, ?_, ?_⟩
    · rw [hf.fs, e1, ← hp]
      exact diskHolds_after_save hs
    · intro h
      rw [hf.pend, ← hp]
      rcases hs.result with ⟨_, _, h3⟩ | ⟨_, _, _, h4⟩
      · exact absurd rfl h3
      · exact h4 rfl (hsync1 h)

theorem Live.started {pw : Bool} {cfg : ServerCfg} {senv : StartEnv} {w w' : World} {s : Server}
    (h : Created cfg senv w (.ok s) w') (hsync : SyncOk pw cfg.blDir w'.log) : Live pw cfg.blDir w' s := by
  obtain ⟨_, _, h3, h4, h5, h6, _⟩ := h.ok s rfl
  rw [h3] at h5 h6
  exact ⟨h3, h4, h5, fun h => h6 (hsync h)⟩

theorem Live.step {A : Aead} {pw : Bool} {dir : Path} {s s' : Sys} {e : Ev} (hst : Step A dir s e s')
    (hl : ∀ srv, s.srv = some srv → Live pw dir s.w srv) (hsync : SyncOk pw dir s'.w.log) :
    ∀ srv, s'.srv = some srv → Live pw dir s'.w srv := by
  cases hst with
  | started w env cfg senv s w' hdir hord h =>
    intro srv hsrv
    cases hsrv
    subst hdir
    exact Live.started (created_of_step hord h) hsync
  | startFailed w env cfg senv o w' hdir hord h hne => intro srv hsrv; cases hsrv
  | packet w s env dg src rd tLog s' r w' h =>
    intro srv hsrv
    have hl := hl s rfl
    exact hl.packet (w := w.withEnv env _) (by rfl) (by rfl) (packetCase_of_step hl.wf h) hsync srv (by cases hsrv; rfl)
  | packetCrash w s env dg src rd tLog w' h => intro srv hsrv; cases hsrv
  | kill w s => intro srv hsrv; cases hsrv
  | power w s w' h => intro srv hsrv; cases hsrv
  | others w w' s hfs hpend hlog =>
    intro srv hsrv
    have := hl srv hsrv
    exact ⟨this.path, this.wf, by rw [hfs]; exact this.holds, fun h => by rw [hpend]; exact this.pend h⟩

theorem syncOk_false (dir : Path) (l : List Event) : SyncOk false dir l := by simp [SyncOk]

theorem live_run_false {A : Aead} {dir : Path} {s s' : Sys} {evs : List Ev} (h : Run A dir s evs s')
    (h0 : ∀ srv, s.srv = some srv → Live false dir s.w srv) : ∀ srv, s'.srv = some srv → Live false dir s'.w srv := by
  induction h with
  | nil => exact h0
  | snoc hr hst ih => exact Live.step hst ih (syncOk_false _ _)

theorem Live.weaken {pw : Bool} {dir : Path} {w : World} {s : Server} (h : Live pw dir w s) : Live false dir w s :=
  ⟨h.path, h.wf, h.holds, by simp⟩

/-- Induction over a history for an invariant that needs the trace so far to contain no failed directory sync. -/
theorem Run.induct {A : Aead} {pw : Bool} {dir : Path} {s : Sys} (I : Sys → Prop)
    (h0 : ∀ srv, s.srv = some srv → Live pw dir s.w srv) (hI : I s)
    (hstep : ∀ s1 e s2, Step A dir s1 e s2 → (∀ srv, s1.srv = some srv → Live pw dir s1.w srv) → SyncOk pw dir s2.w.log →
      (e = .power → pw = true) → I s1 → I s2)
    {evs : List Ev} {s' : Sys} (h : Run A dir s evs s') (hpw : .power ∈ evs → pw = true) (hsync : SyncOk pw dir s'.w.log) :
    I s' ∧ ∀ srv, s'.srv = some srv → Live pw dir s'.w srv := by
  induction h with
  | nil => exact ⟨hI, h0⟩
  | snoc hr hst ih =>
    have hwf := live_run_false hr (fun srv hs => (h0 srv hs).weaken)
    obtain ⟨l, hl⟩ := hst.log_sub (fun srv hs => (hwf srv hs).wf)
    have hy := hsync
    rw [hl] at hy
    obtain ⟨h1, h2⟩ := ih (fun hm => hpw (List.mem_append_left _ hm)) hy.mono
    exact ⟨hstep _ _ _ hst h2 hsync (fun he => hpw (by simp [he])) h1, Live.step hst h2 hsync⟩

theorem Run.log_grows {A : Aead} {dir : Path} {s s' : Sys} {evs : List Ev} (h : Run A dir s evs s')
    (h0 : ∀ srv, s.srv = some srv → Live false dir s.w srv) : ∃ l, s'.w.log = s.w.log ++ l := by
  induction h with
  | nil => exact ⟨[], by simp⟩
  | snoc hr hst ih =>
    obtain ⟨l, hl⟩ := ih
    obtain ⟨l', hl'⟩ := hst.log_sub (fun srv hs => (live_run_false hr h0 srv hs).wf)
    exact ⟨l ++ l', by rw [hl', hl, List.append_assoc]⟩

end Ruroco
