import Verif.Props.KeyLife
import Verif.Props.Units
import Verif.Props.AtMostOnce
import Verif.Spec.Terms.Growth

/-! C93: what a server keeps, and what it does for one datagram, does not grow with the traffic. -/

namespace Ruroco

open Spec (onDisk Durable PowerLoss Survives Acceptable IsKeyFile keyOf)

/-! ## Keys -/

theorem handlers_hasKey {dir : Option (List DirEntry)} {hs : Handlers} (h : createCryptoHandlers dir = .ok hs) {id : List Byte} (hid : id ∈ hs.map Prod.fst) :
    ∃ k, HasKey dir k ∧ k.id = id := by
  classical
  obtain ⟨es, ks, h3, h4, _, _, h7⟩ := (C24_keys_loaded_iff _ _).1 h
  subst h7
  obtain ⟨x, hx, rfl⟩ := List.mem_map.1 hid
  obtain ⟨k, hk, rfl⟩ := List.mem_map.1 hx
  have : some k ∈ (es.filter IsKeyFile).map keyOf := by rw [h4]; exact List.mem_map_of_mem hk
  obtain ⟨e, he, hke⟩ := List.mem_map.1 this
  rw [List.mem_filter] at he
  exact ⟨k, ⟨es, h3, e, he.1, by simpa using he.2, hke⟩, rfl⟩

theorem keys_length {m : BlMap} (hm : m.Wf) {L : List (List Byte)} (h : ∀ k v, m.get k = some v → k ∈ L) : m.length ≤ L.length := by
  have hsub : ∀ k ∈ m.map Prod.fst, k ∈ L := by
    intro k hk
    cases hg : m.get k with
    | none => exact absurd hk (BlMap.get_eq_none.1 hg)
    | some v => exact h k v hg
  have := nodup_length_le hm.nodup hsub
  simpa using this

/-- The file is the one of the beginning, or is flushed, names keys of `L` only and is no larger than these need. -/
def Grown (L : List (List Byte)) (f0 f : Option File) : Prop :=
  f = f0 ∨ ∃ file, f = some file ∧ file.synced = true ∧ (∀ m, decodeBl file.data = some m → ∀ k v, m.get k = some v → k ∈ L) ∧ file.data.length ≤ 6 + 35 * L.length

/-- The file names keys of `L` only. -/
def Names (L : List (List Byte)) (f : Option File) : Prop := ∀ file, f = some file → ∀ m, decodeBl file.data = some m → ∀ k v, m.get k = some v → k ∈ L

theorem Grown.of_holds {L : List (List Byte)} {f0 f : Option File} {m : BlMap} (h : DiskHolds f m) (hm : ∀ k v, m.get k = some v → k ∈ L) : Grown L f0 f := by
  obtain ⟨file, m', h1, h2, h3, h4, h5⟩ := h
  refine .inr ⟨file, h1, h2, fun m'' hd k v hv => ?_, ?_⟩
  · rw [h3] at hd; cases hd
    exact hm k v (by rw [← h4, hv])
  · have := keys_length (decodeBl_wf h3) (L := L) (fun k v hv => hm k v (by rw [← h4, hv]))
    omega

theorem Grown.names {L : List (List Byte)} {f0 f : Option File} (h : Grown L f0 f) (h0 : Names L f0) : Names L f := by
  rcases h with rfl | ⟨file, rfl, _, h, _⟩
  · exact h0
  · intro g hg; cases hg; exact h

theorem Names.get {L : List (List Byte)} {f : Option File} {m : BlMap} (h : Names L f) (hd : DiskHolds f m) : ∀ k v, m.get k = some v → k ∈ L := by
  obtain ⟨file, m', h1, _, h3, h4, _⟩ := hd
  intro k v hv
  exact h file h1 m' h3 k v (by rw [h4, hv])

/-- All states the file can be found in are `Grown`. -/
def Kept (pw : Bool) (dir : Path) (L : List (List Byte)) (f0 : Option File) (w : World) : Prop := ∀ f ∈ cands pw w (blocklistPath dir), Grown L f0 f

theorem kept_packet {A : Aead} {pw : Bool} {dir : Path} {L : List (List Byte)} {f0 : Option File} {s : Server} {w w' : World} {env : Env} {dg : List Byte} {src : Ip} {o : Option Server}
    (h0 : Names L f0) (hl : Live false dir w s) (hk : Kept pw dir L f0 w) (h : PacketCase A s dg src (w.withEnv env (dg.take MSG_SIZE)) o w') : Kept pw dir L f0 w' := by
  have hp := hl.path
  have hget := ((hk _ (by simp [cands])).names h0).get hl.holds
  have hnew : ∀ {now : Nat} {d : ClientData}, Acceptable A s now src dg d → ∀ k v, (s.bl.map.insert (dg.take 8) d.counter).get k = some v → k ∈ L := by
    intro now d ha k v hv
    rw [BlMap.get_insert] at hv
    by_cases hkk : k = dg.take 8
    · obtain ⟨v', hv', _⟩ := ha.fresh
      rw [hkk]; exact hget _ _ hv'
    · rw [if_neg hkk] at hv; exact hget k v hv
  cases h with
  | nothing s' _ hb hh hc h1 h2 h3 =>
    have e1 : w'.fs = w.fs := h1
    have e2 : w'.pend = w.pend := h2
    unfold Kept cands
    rw [e1, e2]; exact hk
  | saved now d hclk ha c o ho _ w' hx hs =>
    rw [hp] at hs
    exact hs.cands (G := Grown L f0) (fun f hd => .of_holds hd (hnew ha)) hk
  | acted now d hclk ha c _ w1 w' o hx hs hsent =>
    rw [hp] at hs
    have := hs.cands (pw := pw) (G := Grown L f0) (fun f hd => .of_holds hd (hnew ha)) hk
    unfold Kept
    rw [show cands pw w' (blocklistPath dir) = cands pw w1 (blocklistPath dir) by unfold cands; rw [hsent.fs, hsent.pend]]
    exact this

theorem kept_started {pw : Bool} {cfg : ServerCfg} {senv : StartEnv} {L : List (List Byte)} {f0 : Option File} {w w' : World} {env : Env} {o : Out Server}
    (h0 : Names L f0) (hL : ∀ k, HasKey senv.dir k → k.id ∈ L) (hk : Kept pw cfg.blDir L f0 w) (h : Created cfg senv (w.withEnv env []) o w') : Kept pw cfg.blDir L f0 w' := by
  refine h.keeps pw (Grown L f0) hk ?_
  intro m m' keys floor f ht hseed _ hd hkeys
  refine .of_holds hd ?_
  intro k v hv
  rw [hseed.get] at hv
  cases hm : m.get k with
  | some v' =>
    rcases ht with (⟨_, rfl⟩ | ⟨g, h1, h2⟩) | ⟨rfl, _⟩
    · simp [BlMap.get] at hm
    · have hfs := hk (w.fs (blocklistPath cfg.blDir)) (by simp [cands])
      exact (hfs.names h0) g h1 m h2 k v' hm
    · simp [BlMap.get] at hm
  | none =>
    rw [hm] at hv
    simp only [Option.none_or] at hv
    split at hv
    · rename_i hmem
      obtain ⟨hs, h1, h2⟩ := hkeys k hmem
      obtain ⟨c, hc, rfl⟩ := handlers_hasKey h1 h2
      exact hL c hc
    · cases hv

theorem kept_run {A : Aead} {pw : Bool} {dir : Path} {L : List (List Byte)} {f0 : Option File} {s s' : Sys} {evs : List Ev} (h : Run A dir s evs s') (hn : s.srv = none)
    (h0 : Names L f0) (hd : pw = true → ∀ f, f0 = some f → f.synced = true) (hpw : .power ∈ evs → pw = true)
    (hL : ∀ env cfg senv, .start env cfg senv ∈ evs → ∀ k, HasKey senv.dir k → k.id ∈ L) (hk : Kept pw dir L f0 s.w) : Kept pw dir L f0 s'.w := by
  have hlive : ∀ srv, s.srv = some srv → Live false dir s.w srv := fun srv hs => by rw [hn] at hs; cases hs
  induction h with
  | nil => exact hk
  | snoc hr hst ih =>
    have hk := ih (fun h => hpw (List.mem_append_left _ h)) (fun env cfg senv h => hL env cfg senv (List.mem_append_left _ h))
    have hl := live_run_false hr hlive
    cases hst with
    | started w env cfg senv s w' hdir hord h =>
      subst hdir
      exact kept_started h0 (hL env cfg senv (by simp)) hk (created_of_step hord h)
    | startFailed w env cfg senv o w' hdir hord h hne =>
      subst hdir
      exact kept_started h0 (hL env cfg senv (by simp)) hk (created_of_step hord h)
    | packet w s env dg src rd tLog s' r w' h => exact kept_packet h0 (hl _ rfl) hk (packetCase_of_step (hl _ rfl).wf h)
    | packetCrash w s env dg src rd tLog w' h => exact kept_packet h0 (hl _ rfl) hk (packetCase_of_step (hl _ rfl).wf h)
    | kill w s => exact hk
    | power w s w' h =>
      have hpw := hpw (by simp)
      subst hpw
      unfold Kept
      simp only [cands, h.nothingPending]
      intro f hm
      simp at hm; subst hm
      obtain ⟨g, hg, hs⟩ := h.entries (blocklistPath dir)
      have hgr := hk g (by simpa [cands] using hg)
      generalize w'.fs (blocklistPath dir) = f' at hs ⊢
      cases hgf : g with
      | none =>
        rw [hgf] at hs hgr
        cases hs
        exact hgr
      | some gf =>
        rw [hgf] at hs hgr
        have hsy : gf.synced = true := by
          rcases hgr with he | ⟨file, he, hsy, _⟩
          · exact hd rfl gf he.symm
          · cases he; exact hsy
        cases hs with
        | synced _ _ => exact hgr
        | unsynced _ _ hu => rw [hsy] at hu; cases hu
    | others w w' s hfs hpend hlog =>
      unfold Kept
      simp only [cands, hfs, hpend]
      exact hk

/-- **C93a.** Over every history of starts, datagrams, failing calls, crashes, kills and power losses, a running server remembers no more counters than there are keys the
installation knows, whatever was sent and however often; the replay state file is still the one of the beginning, or takes at most 35 bytes for each of these keys and 6 bytes besides.
(If the history contains a power loss, the file of the beginning is assumed to be on disk.) -/
theorem C93_state_bounded_by_keys (A : Aead) (dir : Path) (w : World) (evs : List Ev) (s : Sys) (h : Run A dir ⟨w, none⟩ evs s)
    (hd : .power ∈ evs → Durable w (blocklistPath dir)) (L : List (List Byte)) (hL : ∀ id, KnownKey dir w evs id → id ∈ L) :
    (∀ srv, s.srv = some srv → srv.bl.map.length ≤ L.length ∧ ∀ id v, srv.bl.map.get id = some v → id ∈ L) ∧
      ∀ f, s.w.fs (blocklistPath dir) = some f → w.fs (blocklistPath dir) = some f ∨ f.data.length ≤ 6 + 35 * L.length := by
  classical
  have h0 : Names L (w.fs (blocklistPath dir)) := by
    intro file hf m hm k v hv
    exact hL k (.inl ⟨v, by simp [onDisk, hf, hm, hv]⟩)
  have hk : Kept (decide (.power ∈ evs)) dir L (w.fs (blocklistPath dir)) s.w := by
    refine kept_run h rfl h0 (fun hp => (hd (by simpa using hp)).2) (by simp) (fun env cfg senv hm k hk => hL _ (.inr ⟨env, cfg, senv, k, hm, hk, rfl⟩)) ?_
    intro f hf
    unfold cands at hf
    rcases List.mem_cons.1 hf with rfl | hf
    · exact .inl rfl
    · split at hf
      · rename_i hp
        rw [(hd (by simpa using hp)).1] at hf; cases hf
      · cases hf
  have hfs := hk _ (show s.w.fs (blocklistPath dir) ∈ _ by simp [cands])
  refine ⟨fun srv hs => ?_, fun f hf => ?_⟩
  · have hlive := live_run_false h (fun srv hs => by cases hs) srv hs
    have hget := (hfs.names h0).get hlive.holds
    exact ⟨keys_length hlive.wf.map hget, hget⟩
  · rcases hfs with he | ⟨file, he, _, _, hlen⟩
    · exact .inl (by rw [← he, hf])
    · rw [hf] at he; cases he
      exact .inr hlen

/-! ## Work per datagram -/

/-- `m` adds at most `n` entries to the trace of system calls and notes, whatever the outcome. -/
def Costs (n : Nat) (m : Act α) : Prop := ∀ w, (m w).2.log.length ≤ w.log.length + n

theorem Costs.bind {a b : Nat} {m : Act α} {f : α → Act β} (hm : Costs a m) (hf : ∀ x, Costs b (f x)) : Costs (a + b) (m >>= f) := by
  intro w
  show (Act.bind m f w).2.log.length ≤ _
  unfold Act.bind
  have h1 := hm w
  rcases h : m w with ⟨o, w'⟩
  rw [h] at h1
  simp only at h1
  cases o with
  | ok x => have := hf x w'; simp only; omega
  | err e => simp only; omega
  | crash => simp only; omega

/-- `Costs.bind` with the sum given. -/
theorem Costs.seq {n : Nat} (a b : Nat) (hn : a + b = n) {m : Act α} {f : α → Act β} (hm : Costs a m) (hf : ∀ x, Costs b (f x)) : Costs n (m >>= f) := hn ▸ hm.bind hf

theorem Costs.mono {a b : Nat} {m : Act α} (h : Costs a m) (hab : a ≤ b) : Costs b m := fun w => by have := h w; omega

theorem Costs.pure (x : α) : Costs 0 (Pure.pure x : Act α) := fun _ => Nat.le_refl _

theorem Costs.throw (e : Err) : Costs 0 (Act.throw e : Act α) := fun _ => Nat.le_refl _

theorem Costs.peek (p : Path) : Costs 0 (Ruroco.peek p) := fun _ => Nat.le_refl _

theorem Costs.note (ev : Event) : Costs 1 (Ruroco.note ev) := fun w => by simp [Ruroco.note]

theorem Costs.nowNanos : Costs 0 Ruroco.nowNanos := by
  intro w
  unfold Ruroco.nowNanos
  split <;> simp

theorem Costs.ofExcept (x : Except Err α) : Costs 0 (Act.ofExcept x) := by
  cases x with
  | ok a => exact .pure a
  | error e => exact .throw e

theorem Costs.attempt {n : Nat} {m : Act α} (h : Costs n m) : Costs n m.attempt := by
  intro w
  unfold Act.attempt
  have h1 := h w
  rcases hm : m w with ⟨o, w'⟩
  rw [hm] at h1
  cases o <;> exact h1

theorem Costs.call {ev : Event} {eff : World → World} (he : ∀ w, (eff w).log = w.log) : Costs 1 (atomicCall ev eff) := by
  intro w
  exact wp_atomicCall (Q := fun _ w' => w'.log.length ≤ w.log.length + 1) ev eff w (fun o => by simp [he]) (fun o => by simp) (fun o => by simp) (fun o => by simp [he])

theorem append_log (w : World) (p : Path) (bs : List Byte) : (w.append p bs).log = w.log := by
  unfold World.append; split <;> rfl

theorem Costs.writeAll (p : Path) (bs : List Byte) : Costs 1 (Ruroco.writeAll p bs) := by
  intro w
  unfold Ruroco.writeAll syscall
  simp only
  split <;> simp [append_log]

theorem Costs.fsync (p : Path) : Costs 1 (Ruroco.fsync p) := .call (fun w => by split <;> rfl)

theorem Costs.rename (a b : Path) : Costs 1 (Ruroco.rename a b) := by
  unfold Ruroco.rename
  refine (Costs.seq 0 1 rfl (.peek a) (fun f => ?_))
  split
  · exact (Costs.throw _).mono (by omega)
  · exact .call (by intro w; rfl)

theorem Costs.fsyncDir (p : Path) : Costs 2 (Ruroco.fsyncDir p) := by
  unfold Ruroco.fsyncDir
  split
  · exact (Costs.note _).mono (by omega)
  · refine (Costs.seq 1 1 rfl (Costs.attempt (.call (by intro w; rfl))) (fun r => ?_))
    split
    · exact (Costs.pure _).mono (by omega)
    · exact .note _

theorem costs_save (bl : Blocklist) : Costs 6 bl.save := by
  unfold Blocklist.save writeAtomic writeAtomicWithMode
  refine (Costs.seq 0 6 rfl (.ofExcept _) (fun _ => ?_))
  refine (Costs.seq 0 6 rfl .nowNanos (fun t => ?_))
  refine (Costs.seq 1 5 rfl (.call (by intro w; rfl)) (fun _ => ?_))
  refine (Costs.seq 1 4 rfl (.writeAll _ _) (fun _ => ?_))
  refine (Costs.seq 1 3 rfl (.fsync _) (fun _ => ?_))
  exact (Costs.seq 1 2 rfl (.rename _ _) (fun _ => .fsyncDir _))

theorem costs_writeToSocket (c : U128) (d : CommanderData) : Costs 3 (writeToSocket c d) := by
  unfold writeToSocket
  refine (Costs.seq 1 2 rfl (.call (by intro w; rfl)) (fun _ => (Costs.seq 1 1 rfl (.call (by intro w; rfl)) (fun _ => ?_))))
  intro w
  simp only
  split <;> simp

theorem costs_validateAndSend (s : Server) (k p : List Byte) (src : Ip) : Costs 9 (s.validateAndSend k p src) := by
  unfold Server.validateAndSend
  refine (Costs.seq 0 9 rfl (Costs.attempt .nowNanos) (fun now => ?_))
  split
  · exact (Costs.pure _).mono (by omega)
  · simp only
    split
    · exact (Costs.pure _).mono (by omega)
    · split
      · exact (Costs.pure _).mono (by omega)
      split
      · exact (Costs.pure _).mono (by omega)
      split
      · exact (Costs.pure _).mono (by omega)
      split
      · exact (Costs.pure _).mono (by omega)
      refine (Costs.seq 6 3 rfl ?_ (fun x => ?_))
      · unfold Server.updateBlockList
        simp only
        refine (Costs.seq 6 0 rfl (Costs.attempt (costs_save _)) (fun r => ?_))
        split <;> exact .pure _
      · obtain ⟨s', r⟩ := x
        simp only
        split
        · exact (Costs.pure _).mono (by omega)
        · unfold sendCommand
          exact Costs.seq 3 0 rfl (Costs.seq 3 0 rfl (Costs.attempt (costs_writeToSocket _ _)) (fun _ => .pure _)) (fun _ => .pure _)

theorem costs_handle (A : Aead) (s : Server) (dg : List Byte) (src : Ip) (rd : Readings) (t : Nat) : Costs 9 (s.handleDatagram A dg src rd t) := by
  unfold Server.handleDatagram
  refine (Costs.seq 9 0 rfl ?_ (fun x => ?_))
  · unfold Server.iteration
    simp only
    split
    · exact (Costs.pure _).mono (by omega)
    · split
      · exact (Costs.pure _).mono (by omega)
      · split
        · exact (Costs.pure _).mono (by omega)
        · exact costs_validateAndSend _ _ _ _
  · obtain ⟨s', r⟩ := x
    simp only
    split <;> exact .pure _

/-- **C93b.** For one datagram, whatever it contains and whatever fails, the server makes at most nine system calls that are visible outside it (those of one save of the replay state
and of one message to the commander). -/
theorem C93_bounded_work (A : Aead) (s : Server) (dg : List Byte) (src : Ip) (rd : Readings) (t : Nat) (w : World) :
    (s.handleDatagram A dg src rd t w).2.log.length ≤ w.log.length + 9 := costs_handle A s dg src rd t w

/-! ## Work over a history -/

theorem costs_blCreate (dir : Path) (order : BlMap → BlMap) : Costs 9 (Blocklist.create dir order) := by
  have rest : ∀ {n : Nat} {m : Act Blocklist}, Costs n m → Costs (n + 6) (m >>= fun b => b.save >>= fun _ => pure b) :=
    fun {n m} h => Costs.seq n 6 rfl h (fun b => Costs.seq 6 0 rfl (costs_save b) (fun _ => .pure _))
  unfold Blocklist.create
  simp only
  refine Costs.seq 2 7 rfl ?_ (fun b => ?_)
  · unfold pathExists
    refine Costs.seq 1 1 rfl (Costs.attempt (.call (by intro w; rfl))) (fun r => ?_)
    split
    · exact (Costs.seq 0 0 rfl (.peek _) (fun _ => .pure _)).mono (by omega)
    · exact Costs.seq 1 0 rfl (.note _) (fun _ => .pure _)
  · split
    · refine Costs.seq 1 6 rfl ?_ (fun bytes => ?_)
      · unfold readFile
        refine Costs.seq 1 0 rfl (.call (by intro w; rfl)) (fun _ => Costs.seq 0 0 rfl (.peek _) (fun f => ?_))
        split
        · exact .pure _
        · exact .throw _
      · split
        · exact rest (.pure _)
        · exact rest (.throw _)
    · exact (rest (.pure _)).mono (by omega)

theorem costs_start (cfg : ServerCfg) (senv : StartEnv) : Costs 15 (Server.create cfg senv) := by
  unfold Server.create
  refine Costs.seq 0 15 rfl (.ofExcept _) (fun handlers => ?_)
  refine Costs.seq 9 6 rfl (costs_blCreate _ _) (fun bl => ?_)
  refine Costs.seq 0 6 rfl .nowNanos (fun floor => ?_)
  refine Costs.seq 6 0 rfl (costs_save _) (fun _ => ?_)
  split
  · exact .pure _
  · exact .throw _

/-- **C93c.** Over every history the server's system calls number at most nine for each datagram that arrived and fifteen for each start: no datagram makes later ones more expensive. -/
theorem C93_work_is_linear (A : Aead) (dir : Path) (s s' : Sys) (evs : List Ev) (h : Run A dir s evs s') : s'.w.log.length ≤ s.w.log.length + (evs.map Ev.allowance).sum := by
  induction h with
  | nil => simp
  | snoc hr hst ih =>
    rw [List.map_append, List.sum_append]
    have step : ∀ {α : Type} {n : Nat} {m : Act α} {w : World} {o : Out α} {w' : World} {env : Env} {c : List Byte}, Costs n m → m (w.withEnv env c) = (o, w') → w'.log.length ≤ w.log.length + n := by
      intro α n m w o w' env c hc h
      have := hc (w.withEnv env c)
      rw [h] at this
      exact this
    cases hst with
    | started w env cfg senv s w' hdir hord h =>
      have := step (costs_start cfg senv) h
      simp [Ev.allowance] at ih ⊢; omega
    | startFailed w env cfg senv o w' hdir hord h hne =>
      have := step (costs_start cfg senv) h
      simp [Ev.allowance] at ih ⊢; omega
    | packet w s env dg src rd tLog s' r w' h =>
      have := step (costs_handle A s dg src rd tLog) h
      simp [Ev.allowance] at ih ⊢; omega
    | packetCrash w s env dg src rd tLog w' h =>
      have := step (costs_handle A s dg src rd tLog) h
      simp [Ev.allowance] at ih ⊢; omega
    | kill w s => simpa [Ev.allowance] using ih
    | power w s w' h => simp only [h.log]; simpa [Ev.allowance] using ih
    | others w w' s hfs hpend hlog => simp only [hlog]; simpa [Ev.allowance] using ih

/-! ## The hypotheses are met -/

/-- Key rotation: three starts, five datagrams, two keys. The list of the two ids contains every key known to the installation, and both are remembered at the end. -/
example : (∀ id, KnownKey "/s".toList exEmpty exRotation id → id ∈ [exKey.id, exSecondKey.id]) ∧
    ((exRotation.foldl (exec toyAead) ⟨exEmpty, none⟩).srv.map (fun srv => srv.bl.map.length)) = some 2 ∧
    (((exRotation.foldl (exec toyAead) ⟨exEmpty, none⟩).w.fs (blocklistPath "/s".toList)).map (fun f => decide (f.data.length ≤ 76))) = some true := by
  refine ⟨?_, by decide +kernel, by decide +kernel⟩
  rintro id (⟨v, hv⟩ | ⟨env, cfg, senv, k, hm, ⟨es, he, e, hme, _, hko⟩, rfl⟩)
  · simp [onDisk, exEmpty] at hv
  · have hd : ∀ e ∈ es, keyOf e ∈ [none, some exKey, some exSecondKey] := by
      simp only [exRotation, exStart, exStartDir, exPacket, exSecondPacket, List.mem_cons, List.not_mem_nil, or_false] at hm
      rcases hm with hm | hm | hm | hm | hm | hm | hm | hm | hm | hm <;> cases hm <;> cases he <;> decide +kernel
    have := hd e hme
    rw [hko] at this
    simp at this
    rcases this with rfl | rfl <;> simp

/-- The bound for one datagram is attained: the directory can not be flushed (which is ignored), the rest works. -/
example : (exServer.handleDatagram toyAead (exSealed 5000) (.v4 0x0a000001) exReadings 0 (exEmpty.withEnv ⟨[.ok, .ok, .ok, .ok, .err 0], [some 1100, some 1100]⟩ (exSealed 5000))).2.log.length = 9 := by
  decide +kernel

end Ruroco
