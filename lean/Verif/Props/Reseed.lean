import Verif.Props.Joint
import Verif.Spec.Terms.Reseed

/-! C40: what reseeding the client's counter achieves. -/

namespace Ruroco

open Spec (datagrams wire counterOnDisk onDisk forwards Seals Acceptable PowerLoss Survives Durable)

/-! ## Server side: every loaded key has a stored counter -/

theorem step_known {A : Aead} {dir : Path} {s s' : Sys} {e : Ev} (hst : Step A dir s e s')
    (hl : ∀ srv, s.srv = some srv → Live false dir s.w srv)
    (h : ∀ srv, s.srv = some srv → ∀ k hd, srv.handlers.get k = some hd → ∃ v, srv.bl.map.get k = some v) :
    ∀ srv, s'.srv = some srv → ∀ k hd, srv.handlers.get k = some hd → ∃ v, srv.bl.map.get k = some v := by
  have pk : ∀ {s : Server} {dg : List Byte} {src : Ip} {w w' : World} {o : Option Server}, PacketCase A s dg src w o w' →
      (∀ k hd, s.handlers.get k = some hd → ∃ v, s.bl.map.get k = some v) →
      ∀ srv, o = some srv → ∀ k hd, srv.handlers.get k = some hd → ∃ v, srv.bl.map.get k = some v := by
    intro s dg src w w' o hc h srv hsrv k hd hg
    cases hc with
    | nothing s' _ hb hh hcf h1 h2 h3 =>
      cases hsrv
      rw [hh] at hg
      rw [hb]
      exact h k hd hg
    | saved now d hclk ha c o ho _ w' hx hs =>
      obtain ⟨e1, e2, _⟩ := hx srv hsrv
      rw [e2] at hg
      rw [e1]
      exact h k hd hg
    | acted now d hclk ha c _ w1 w' o hx hs hsent =>
      obtain ⟨e1, e2, _⟩ := hx srv hsrv
      rw [e2] at hg
      rw [e1]
      show ∃ v, (s.bl.map.insert (dg.take 8) d.counter).get k = some v
      rw [BlMap.get_insert]
      split
      · exact ⟨_, rfl⟩
      · exact h k hd hg
  cases hst with
  | started w env cfg senv s w' hdir hord hc =>
    intro srv hsrv k hd hg
    cases hsrv
    obtain ⟨_, h2, _, _, _, _, _, _, m, floor, _, _, hseed⟩ := (created_of_step hord hc).ok s rfl
    rw [hseed.get, if_pos (List.mem_map.2 ⟨_, handlers_mem_of_get hg, rfl⟩)]
    cases m.get k <;> exact ⟨_, rfl⟩
  | startFailed w env cfg senv o w' hdir hord hc hne => exact nofun
  | packet w s env dg src rd tLog s' r w' hc => exact pk (packetCase_of_step (hl _ rfl).wf hc) (h s rfl)
  | packetCrash w s env dg src rd tLog w' hc => exact nofun
  | kill w s => exact nofun
  | power w s w' hp => exact nofun
  | others w w' s hfs hpend hlog => exact h

theorem run_known {A : Aead} {dir : Path} {w : World} {s : Sys} {evs : List Ev} (hr : Run A dir ⟨w, none⟩ evs s) :
    ∀ srv, s.srv = some srv → ∀ k hd, srv.handlers.get k = some hd → ∃ v, srv.bl.map.get k = some v := by
  have key : ∀ {s0 s : Sys} {evs : List Ev}, s0.srv = none → Run A dir s0 evs s →
      ∀ srv, s.srv = some srv → ∀ k hd, srv.handlers.get k = some hd → ∃ v, srv.bl.map.get k = some v := by
    intro s0 s evs h0 hr
    induction hr with
    | nil => rw [h0]; exact nofun
    | snoc hr hst ih =>
      refine step_known hst (live_run_false hr ?_) ih
      rw [h0]
      exact nofun
  exact key rfl hr

/-- A datagram of the client, carrying the key id and a counter above the stored one, is not called a replay. -/
theorem not_replayed {A : Aead} (hA : A.Correct) {b : Bond} {s : Server} (hwf : s.bl.Wf) {c : U128} {bytes : List Byte} (hmade : Made A b c bytes)
    (hid : bytes.take 8 = b.k) (hkey : ∀ h, s.handlers.get b.k = some h → h.key = b.key)
    (hknown : ∀ h, s.handlers.get b.k = some h → ∃ v, s.bl.map.get b.k = some v)
    (habove : ∀ v, s.bl.map.get b.k = some v → v.toNat < c.toNat) (src : Ip) (rd : Readings) (w w' : World) (s' : Server) :
    s.iteration A bytes src rd w ≠ (.ok (s', .error .replayed), w') := by
  intro hit
  have := iteration_replayed A s hwf bytes src rd w
  unfold wp at this
  rw [hit] at this
  obtain ⟨k, pt, d, hau, hde, hrep⟩ := this s' rfl
  have hk' : k = b.k := by rw [hau.2.1]; exact hid
  obtain ⟨_, h, hg, hs1⟩ := authenticates_iff.1 ⟨k, pt, hau, hde⟩
  rw [hid] at hg
  obtain ⟨v, hv⟩ := hknown h hg
  rw [hkey h hg] at hs1
  obtain ⟨h', iv, d', e1, e2, e3, e4, e5, e6⟩ := hmade
  obtain ⟨f1, f2, hseal⟩ := packet_seals hA e1 e2 e3 e5
  have hid' : h'.id = b.k := by rw [← f2]; exact hid
  rw [e6 hid'] at hseal
  obtain ⟨pt1, g1, _, g2⟩ := hs1
  obtain ⟨pt2, g3, _, g4⟩ := hseal
  rw [g1] at g3
  cases g3
  rw [g2] at g4
  cases g4
  rw [hk', isCounterReplayed_false.2 ⟨v, hv, by show v.toNat < d'.counter.toNat; rw [e4]; exact habove v hv⟩] at hrep
  cases hrep

/-! ## Client side -/

theorem acquireLock_frame (p : Path) (held : Bool) (w : World) :
    wp (acquireLock p held) w (fun _ w' => w'.clock = w.clock ∧ ∃ l, w'.log = w.log ++ l ∧ FileEvents (· = p) l) := by
  unfold acquireLock openCreate
  rw [wp_bind]
  let Q (w' : World) : Prop := w'.clock = w.clock ∧ ∃ l, w'.log = w.log ++ l ∧ FileEvents (· = p) l
  have step : ∀ {w1 w2 : World} (op : FileOp), Q w1 → w2.clock = w1.clock → w2.log = w1.log ++ [.file op p] → Q w2 := by
    rintro w1 w2 op ⟨h1, l, h2, h3⟩ h4 h5
    refine ⟨by rw [h4, h1], l ++ [.file op p], by rw [h5, h2, List.append_assoc], h3.append ?_⟩
    intro e he
    simp at he
    subst he
    rfl
  have h1 : ∀ o, Q { w with log := w.log ++ [.file .openTrunc p], oracle := o } := fun o =>
    step .openTrunc ⟨rfl, [], by simp, by simp [FileEvents]⟩ rfl rfl
  have h2 : ∀ w : World, Q w → Q (match w.fs p with
      | some _ => w
      | none => w.setEntry p (some ⟨[], w.newMode, false, .creator⟩)) := by
    intro w h
    split
    · exact h
    · exact h
  have h3 : ∀ w : World, Q w → wp (do atomicCall (.file .lock p) id; if held then Act.throw .locked else pure ()) w (fun _ w' => Q w') := by
    intro w h
    rw [wp_bind]
    apply wp_atomicCall <;> intro o
    · simp only [id]
      split
      · exact step .lock h rfl rfl
      · exact step .lock h rfl rfl
    · exact step .lock h rfl rfl
    · exact step .lock h rfl rfl
    · exact step .lock h rfl rfl
  apply wp_atomicCall <;> intro o
  · exact h3 _ (h2 _ (h1 o))
  · exact h1 o
  · exact h1 o
  · exact h2 _ (h1 o)

/-- A `reseed` that reports success has put a clock reading into the counter file. -/
theorem runReseed_spec (dir : Path) (held : Bool) (w : World) :
    wp (runReseed dir held) w (fun o w' => (∃ l, w'.log = w.log ++ l ∧ ∀ ip port c bytes, .udp ip port c bytes ∉ l) ∧
      (o = .ok () → ∃ t f, some t ∈ w.clock ∧ w'.fs (counterPath dir) = some f ∧ f.data = beBytes 16 t.toNat ∧ f.synced = true)) := by
  unfold runReseed
  rw [wp_bind]
  refine wp_mono (acquireLock_frame _ held w) ?_
  rintro o w1 ⟨hc, l, hl, hf⟩
  have hq : ∃ l, w1.log = w.log ++ l ∧ ∀ ip port c bytes, .udp ip port c bytes ∉ l := ⟨l, hl, fileEvents_noUdp hf⟩
  cases o with
  | crash => exact ⟨hq, nofun⟩
  | err e => exact ⟨hq, nofun⟩
  | ok u =>
    simp only
    rw [wp_bind]
    apply wp_nowNanos
    · intro now c hcl
      simp only
      unfold Counter.reseed
      refine wp_mono (Counter.write_spec ⟨counterPath dir, now⟩ _) ?_
      intro o w2 hw
      obtain ⟨l2, hl2, hf2⟩ := hw.log
      refine ⟨⟨l ++ l2, by rw [hl2, ← List.append_assoc, ← hl], ?_⟩, ?_⟩
      · intro ip port c bytes hm
        rcases List.mem_append.1 hm with hm | hm
        · exact fileEvents_noUdp hf _ _ _ _ hm
        · exact fileEvents_noUdp hf2 _ _ _ _ hm
      · rintro rfl
        rcases hw.result with ⟨_, _, h3⟩ | ⟨⟨f, h1, h2, h3, _⟩, _⟩
        · exact absurd rfl h3
        · exact ⟨now, f, by rw [← hc, hcl]; simp, h1, h2, h3⟩
    · intro c
      exact ⟨hq, nofun⟩

theorem CRun.above {A : Aead} {hash : List Char → U64} {dir : Path} {b : Bond} {w w' : World} {evs : List CEv} (hr : CRun A hash dir w evs w')
    (hu : ∀ e ∈ evs, UsesKey b e) (hk : CKey A false (counterPath dir) b [] w)
    (hi : CInvIf A false (counterPath dir) [b.T] w.log w) :
    CKey A false (counterPath dir) b [] w' ∧ CInvIf A false (counterPath dir) [b.T] w.log w' := by
  generalize hold : w.log = old at hi ⊢
  clear hold
  induction hr with
  | nil => exact ⟨hk, hi⟩
  | @snoc w1 w2 evs e hr hst ih =>
    obtain ⟨h1, h2⟩ := ih (fun e he => hu e (List.mem_append_left _ he))
    have hue := hu e (by simp)
    have hne : ∀ env held, e ≠ .reseed env held := by rintro env held rfl; exact hue
    have hnp : e = .power → false = true := by rintro rfl; exact hue.elim
    refine ⟨?_, hst.inv hne hnp h2⟩
    have hsome : w1.fs (counterPath dir) ≠ none := by
      obtain ⟨f, hf, _⟩ := (h2 nofun).stored (w1.fs (counterPath dir)) (by simp [cands]) b.T (by simp)
      rw [hf]
      exact nofun
    -- the other invariant of `CStep.keeps` is not needed: use it with what we have
    have hi0 : CInvIf A false (counterPath dir) [] old w1 := fun hs =>
      ⟨(h2 hs).increasing, fun f hf c hc => (h2 hs).stored f hf c (List.mem_append_right _ hc), nofun, (h2 hs).genuine⟩
    refine (hst.keeps (b := b) (W := []) (old := old) ?_ hnp h1 hi0).1
    cases e with
    | send env held cmd senv => exact ⟨hue.1, hue.2, fun hn => absurd hn hsome⟩
    | reseed env held => exact hue.elim
    | power => trivial
    | others => trivial

/-- **C40, partial.** A client reseeds its counter (observed from there on: nothing sent yet in the trace), successfully, with a clock not behind `B`,
whatever was in the counter file before – nothing, a low value, damaged bytes. The server has been through any history in which `B` bounds the
counters initially stored, the clock readings at starts, and the clock readings at packets plus the largest configured clock skew `S`.
Then every datagram of the sends that follow carries a counter above everything the server has stored, and the server, on receiving it next, does not
reject it as a replay. What is missing from the documented claim: without the margin `S` it is false (`C40_reseed_can_stay_below`). -/
theorem C40_reseed_recovers_partial (A : Aead) (hA : A.Correct) (hash : List Char → U64) (b : Bond) (cdir sdir : Path)
    -- the server
    (w0 : World) (sevs : List Ev) (sys : Sys) (hs : Run A sdir ⟨w0, none⟩ sevs sys) (S : Nat)
    (hlog : forwards w0.log = []) (hinit : ∀ k v, onDisk w0 (blocklistPath sdir) k = some v → v.toNat ≤ b.T)
    (hdur : .power ∈ sevs → Durable w0 (blocklistPath sdir))
    (hstart : ∀ env cfg senv, .start env cfg senv ∈ sevs → (∀ t, some t ∈ env.clock → t.toNat ≤ b.T) ∧ cfg.skewSeconds.toNat ≤ S)
    (hpacket : ∀ env dg src rd tl, .packet env dg src rd tl ∈ sevs → ∀ t, some t ∈ env.clock → t.toNat + S * 1000000000 ≤ b.T)
    -- the client
    (cw cw1 cw2 : World) (held : Bool) (hnone : cw.log = []) (hclock : ∀ t, some t ∈ cw.clock → b.T ≤ t.toNat)
    (hreseed : runReseed cdir held cw = (.ok (), cw1)) (cevs : List CEv) (hc : CRun A hash cdir cw1 cevs cw2) (hu : ∀ e ∈ cevs, UsesKey b e)
    (ip : Ip) (port : Nat) (c : U128) (bytes : List Byte) (hm : .udp ip port c bytes ∈ cw2.log) :
    (∀ k v, onDisk sys.w (blocklistPath sdir) k = some v → v.toNat < c.toNat) ∧
    ∀ s, sys.srv = some s → (∀ h, s.handlers.get b.k = some h → h.key = b.key) → bytes.take 8 = b.k →
      ∀ (src : Ip) (rd : Readings) (w w' : World) (s' : Server), s.iteration A bytes src rd w ≠ (.ok (s', .error .replayed), w') := by
  have hsp := runReseed_spec cdir held cw
  unfold wp at hsp
  rw [hreseed] at hsp
  obtain ⟨⟨l, hl, hnl⟩, hok⟩ := hsp
  obtain ⟨t, f, ht, hf, hd, hsy⟩ := hok rfl
  have hT := hclock t ht
  rw [hnone, List.nil_append] at hl
  have hw1 : wire cw1.log = [] := by rw [hl]; exact wire_nil_of_noUdp hnl
  have hholds : HoldsAtLeast false b.T (some f) := holds_new hd hsy hT
  have hk1 : CKey A false (counterPath cdir) b [] cw1 := by
    refine ⟨⟨[], by rw [hw1]; rfl⟩, ?_, by rw [hw1]; exact nofun, ?_⟩
    · intro g hg
      simp [cands] at hg
      rw [hg, hf]
      exact Or.inr hholds
    · intro ip port c bytes hm
      rw [hl] at hm
      exact absurd hm (hnl _ _ _ _)
  have hi1 : CInvIf A false (counterPath cdir) [b.T] cw1.log cw1 := by
    intro _
    refine ⟨by rw [hw1]; exact .nil, ?_, by rw [hw1]; exact nofun, fun _ _ _ _ h => Or.inl h⟩
    intro g hg x hx
    simp [cands] at hg
    rw [hw1] at hx
    simp at hx
    rw [hg, hf, hx]
    exact hholds
  obtain ⟨hk2, _⟩ := hc.above hu hk1 hi1
  have hTc : b.T < c.toNat := hk2.above c (by
    unfold wire
    rw [List.mem_filterMap]
    exact ⟨_, hm, rfl⟩)
  have hdisk := (C10_counters_bounded A sdir w0 sevs sys hs hlog b.T S hinit hdur hstart hpacket).1
  have hdisk' : ∀ k v, onDisk sys.w (blocklistPath sdir) k = some v → v.toNat < c.toNat := fun k v hv => Nat.lt_of_le_of_lt (hdisk k v hv) hTc
  refine ⟨hdisk', ?_⟩
  intro s hsrv hkey hid src rd w w' s'
  have hlive := live_run_false hs nofun s hsrv
  refine not_replayed hA hlive.wf (hk2.made ip port c bytes hm) hid hkey (fun h hg => run_known hs s hsrv b.k h hg) ?_ src rd w w' s'
  intro v hv
  obtain ⟨file, m', h1, _, h3, h4⟩ := hlive.holds
  refine hdisk' b.k v ?_
  simp only [onDisk, h1, h3]
  simp [h4, hv]

/-! ## The documented claim is false -/

def saysReplayed : Out (Server × Except Err Unit) × World → Bool
  | (.ok (_, .error .replayed), _) => true
  | _ => false

theorem rejectedAsReplay_of {A : Aead} {s : Server} {bytes : List Byte} {src : Ip} {rd : Readings} {w : World}
    (h : saysReplayed (s.iteration A bytes src rd w) = true) : RejectedAsReplay A s bytes src rd w := by
  unfold RejectedAsReplay
  revert h
  generalize s.iteration A bytes src rd w = r
  intro h
  unfold saysReplayed at h
  split at h
  · exact ⟨_, _, rfl⟩
  · cases h

/-- Another machine with the same key, counter 500; its clock is 2000, later than every clock reading of the server so far (at most 1100). -/
def exLate : World := (exDisk (some (beBytes 16 500)) []).withEnv ⟨[], List.replicate 9 (some 2000)⟩ []

def exLate1 : World := (runReseed "/c".toList false exLate).2

def exLate2 : World := (runSend toyAead exHash "/c".toList false exOpen (exClientEnv exClientKey) (exLate1.withEnv ⟨[], List.replicate 9 (some 2050)⟩ [])).2

/-- The server receives a datagram at time 2100. -/
def exLateArrival (s : Server) (bytes : List Byte) : Out (Server × Except Err Unit) × World :=
  s.iteration toyAead bytes (.v4 0x0a000001) exReadings (exSys3.w.withEnv ⟨[], List.replicate 3 (some 2100)⟩ [])

theorem exLate_replayed : (match exSys3.srv with
    | none => false
    | some s => (datagrams exLate2.log).all (fun x => saysReplayed (exLateArrival s x.2.2.2))) = true := by decide +kernel

theorem exSys3_run : Run toyAead "/s".toList ⟨exEmpty, none⟩ [exDualStart, exArrival exBytes4, exArrival exBytes6] exSys3 :=
  (((Run.nil _).snoc exStep1).snoc exStep2).snoc exStep3

theorem exSys3_clock : ∀ e ∈ [exDualStart, exArrival exBytes4, exArrival exBytes6], e.ClockAtMost 1100 := by
  intro e he
  simp only [List.mem_cons, List.not_mem_nil, or_false] at he
  rcases he with rfl | rfl | rfl
  · intro x hx
    simp at hx
    rw [hx]
    decide
  · intro x hx
    simp at hx
    rw [hx]
    decide
  · intro x hx
    simp at hx
    rw [hx]
    decide

/-- **C40 is false as documented**: the server accepted a request whose counter was ahead of its clock (within the allowed skew). Another client with
the same key lags behind (counter 500), reseeds at a time after everything the server has seen, and its next datagrams are still rejected as replays. -/
theorem C40_reseed_can_stay_below : ∃ (evs : List Ev) (sys : Sys) (s : Server),
    Run toyAead "/s".toList ⟨exEmpty, none⟩ evs sys ∧ sys.srv = some s ∧ (∀ e ∈ evs, e.ClockAtMost 1100) ∧
    counterOnDisk exLate "/c/counter".toList = some 500 ∧ exLate.clock.head? = some (some 2000) ∧
    (runReseed "/c".toList false exLate).1 = .ok () ∧ (datagrams exLate2.log).length = 2 ∧
    ∀ x ∈ datagrams exLate2.log, RejectedAsReplay toyAead s x.2.2.2 (.v4 0x0a000001) exReadings (sys.w.withEnv ⟨[], List.replicate 3 (some 2100)⟩ []) := by
  have h := exLate_replayed
  have h1 : counterOnDisk exLate "/c/counter".toList = some 500 := by decide +kernel
  have h2 : (runReseed "/c".toList false exLate).1 = .ok () := by decide +kernel
  have h3 : (datagrams exLate2.log).length = 2 := by decide +kernel
  cases hs : exSys3.srv with
  | none => rw [hs] at h; cases h
  | some s =>
    rw [hs] at h
    refine ⟨_, exSys3, s, exSys3_run, hs, exSys3_clock, h1, rfl, h2, h3, ?_⟩
    intro x hx
    simp only at h
    rw [List.all_eq_true] at h
    have := h x hx
    unfold exLateArrival at this
    exact rejectedAsReplay_of this

/-- Non-vacuity of the partial theorem: with a clock of 4000 s (the server's skew setting is 3600 s), and a damaged counter file, … -/
def exRec : World := (exDisk (some [1, 2, 3]) []).withEnv ⟨[], List.replicate 9 (some 4000000000000)⟩ []

def exRec1 : World := (runReseed "/c".toList false exRec).2

def exRecEnv : Env := ⟨[], List.replicate 9 (some 2050)⟩

def exRec2 : World := (runSend toyAead exHash "/c".toList false exOpen (exClientEnv exClientKey) (exRec1.withEnv exRecEnv [])).2

def exRecBond : Bond := ⟨exKey.id, exKey.key, 3600000001100⟩

/-- … two datagrams are sent, … -/
theorem exRec_sent : wire exRec2.log = [4000000000001, 4000000000002] := by decide +kernel

theorem run_ok_eq {dir : Path} {held : Bool} {w : World} (h : (runReseed dir held w).1 = .ok ()) :
    runReseed dir held w = (.ok (), (runReseed dir held w).2) := Prod.ext h rfl

theorem exRec_uses : ∀ e ∈ ([] ++ [.send exRecEnv false exOpen (exClientEnv exClientKey)] : List CEv), UsesKey exRecBond e := by
  intro e he
  simp only [List.nil_append, List.mem_singleton] at he
  subst he
  refine ⟨?_, ?_⟩
  · intro t h ht hc hid
    cases ht
    have : CryptoHandler.create (trim exClientKey) = .ok exSenderKey := by decide +kernel
    rw [this] at hc
    cases hc
    rfl
  · intro i iv hiv
    cases hiv
    simp

theorem exSys3_within (env : Env) (cfg : ServerCfg) (senv : StartEnv) (h : .start env cfg senv ∈ [exDualStart, exArrival exBytes4, exArrival exBytes6]) :
    (∀ t, some t ∈ env.clock → t.toNat ≤ exRecBond.T) ∧ cfg.skewSeconds.toNat ≤ 3600 := by
  simp only [List.mem_cons, List.not_mem_nil, or_false, exArrival, reduceCtorEq] at h
  unfold exDualStart at h
  injection h with h1 h2 h3
  subst h1 h2
  refine ⟨?_, by decide⟩
  intro x hx
  simp at hx
  rw [hx]
  decide

theorem exSys3_packets (env : Env) (dg : List Byte) (src : Ip) (rd : Readings) (tl : Nat)
    (h : .packet env dg src rd tl ∈ [exDualStart, exArrival exBytes4, exArrival exBytes6]) (t : U128) (ht : some t ∈ env.clock) :
    t.toNat + 3600 * 1000000000 ≤ exRecBond.T := by
  have : env = ⟨[], [some 1100, some 1100, some 1100]⟩ := by
    simp only [List.mem_cons, List.not_mem_nil, or_false, exDualStart, reduceCtorEq, false_or] at h
    unfold exArrival at h
    rcases h with h | h
    · injection h
    · injection h
  subst this
  simp at ht
  rw [ht]
  decide

theorem exSys3_key : (match exSys3.srv with
    | none => none
    | some s => s.handlers.get exKey.id) = some exKey := by decide +kernel

/-- … and each of them is above what the server has stored and is not rejected as a replay. -/
theorem exRec_accepted (ip : Ip) (port : Nat) (c : U128) (bytes : List Byte) (hm : .udp ip port c bytes ∈ exRec2.log) (hid : bytes.take 8 = exKey.id) :
    (∀ k v, onDisk exSys3.w (blocklistPath "/s".toList) k = some v → v.toNat < c.toNat) ∧
    ∀ s, exSys3.srv = some s → ∀ (src : Ip) (rd : Readings) (w : World), ¬ RejectedAsReplay toyAead s bytes src rd w := by
  have hc : ∀ t, some t ∈ exRec.clock → exRecBond.T ≤ t.toNat := by
    intro t ht
    have : exRec.clock = List.replicate 9 (some 4000000000000) := rfl
    rw [this] at ht
    simp at ht
    rw [ht]
    decide
  have hr : (runReseed "/c".toList false exRec).1 = .ok () := by decide +kernel
  have hstep : CStep toyAead exHash "/c".toList exRec1 (.send exRecEnv false exOpen (exClientEnv exClientKey)) exRec2 := by
    unfold exRec2
    exact CStep.of_send toyAead exHash "/c".toList exRec1 exRecEnv false exOpen (exClientEnv exClientKey)
  have hre : runReseed "/c".toList false exRec = (.ok (), exRec1) := by
    unfold exRec1
    exact run_ok_eq hr
  obtain ⟨h1, h2⟩ := C40_reseed_recovers_partial toyAead toyAead_correct exHash exRecBond "/c".toList "/s".toList exEmpty _ exSys3 exSys3_run 3600
    rfl nofun (fun _ => ⟨rfl, nofun⟩) exSys3_within exSys3_packets exRec exRec1 exRec2 false rfl hc hre _ ((CRun.nil _).snoc hstep) exRec_uses ip port c bytes hm
  refine ⟨h1, ?_⟩
  intro s hs src rd w ⟨s', w', h⟩
  refine h2 s hs ?_ hid src rd w w' s' h
  intro hd hg
  have := exSys3_key
  rw [hs] at this
  simp only at this
  have e : exRecBond.k = exKey.id := rfl
  rw [e, this] at hg
  cases hg
  rfl

end Ruroco
