import Verif.Spec.Gate
import Verif.Props.Growth
import Verif.Props.Setup

/-! # C105: the server is a gate with one number per key -/

namespace Ruroco

open Spec (Acceptable Seals RateOk forwards message PowerLoss Survives Durable Numbers numbersIn LoadsKeys OpenGate Gate Lets Trouble Comes Output GateStep GateRun IsKeyFile keyOf)

/-! ## Numbers -/

theorem numbersIn_holds {f : Option File} {m : BlMap} (h : DiskHolds f m) : numbersIn f = some (fun k => m.get k) := by
  obtain ⟨file, m', rfl, _, h3, h4, _⟩ := h
  unfold numbersIn
  simp only [h3, Option.map_some]
  exact congrArg some (funext h4)

theorem numbersIn_loaded {w : World} {P : Path} {m : BlMap} (h : Loaded w P m) : numbersIn (w.fs P) = some (fun k => m.get k) := by
  rcases h with ⟨h, rfl⟩ | ⟨f, h, hd⟩
  · rw [h]; rfl
  · rw [h]; simp [numbersIn, hd]

theorem loaded_of_numbers {w : World} {P : Path} {n : Numbers} (h : numbersIn (w.fs P) = some n) : ∃ m, Loaded w P m ∧ n = fun k => m.get k := by
  cases hf : w.fs P with
  | none =>
    rw [hf] at h
    exact ⟨[], .inl ⟨hf, rfl⟩, (Option.some.inj h).symm⟩
  | some f =>
    rw [hf] at h
    unfold numbersIn at h
    cases hd : decodeBl f.data with
    | none => simp [hd] at h
    | some m =>
      simp only [hd, Option.map_some] at h
      exact ⟨m, .inr ⟨f, hf, hd⟩, (Option.some.inj h).symm⟩

theorem put_insert (m : BlMap) (k : List Byte) (c : U128) : (fun k' => (m.insert k c).get k') = Numbers.put (fun k => m.get k) k c := by
  funext k'
  rw [BlMap.get_insert]
  rfl

theorem many_of_length {m : BlMap} (hm : m.Wf) (h : 2 ^ 32 ≤ m.length) : Numbers.Many (fun k => m.get k) := by
  intro l hl
  have := keys_length hm (L := l) (fun k v hv => hl k (by simp [hv]))
  omega

theorem loadsKeys_iff {dir : Option (List DirEntry)} {hs : Handlers} :
    createCryptoHandlers dir = .ok hs ↔ ∃ keys, LoadsKeys dir keys ∧ hs = keys.map (fun k => (k.id, k)) := by
  classical
  rw [C24_keys_loaded_iff]
  unfold LoadsKeys
  constructor
  · rintro ⟨es, ks, h1, h2, h3, h4, h5⟩
    refine ⟨ks, ⟨es, h1, ?_, h3, h4⟩, h5⟩
    rw [← h2]
  · rintro ⟨ks, ⟨es, h1, h2, h3, h4⟩, h5⟩
    refine ⟨es, ks, h1, ?_, h3, h4, h5⟩
    rw [← h2]

theorem get_of_mem {keys : List CryptoHandler} (hn : (keys.map (·.id)).Nodup) {k : CryptoHandler} (hk : k ∈ keys) : Handlers.get (keys.map (fun k => (k.id, k))) k.id = some k := by
  induction keys with
  | nil => cases hk
  | cons a rest ih =>
    rw [List.map_cons, List.nodup_cons] at hn
    rw [List.map_cons]
    unfold Handlers.get
    rcases List.mem_cons.1 hk with rfl | hk
    · simp
    · have hne : a.id ≠ k.id := fun he => hn.1 (by rw [he]; exact List.mem_map_of_mem hk)
      simp only [hne, if_false]
      exact ih hn.2 hk

theorem map_fst_ids (keys : List CryptoHandler) : (keys.map (fun k => (k.id, k))).map Prod.fst = keys.map (·.id) := by
  rw [List.map_map]; rfl

/-! ## The rate limiter, as far as the gate is concerned -/

/-- No slot counts more than `n` datagrams. -/
def CountsAtMost (n : Nat) (rl : RateLimiter) : Prop := rl.global.count ≤ n ∧ ∀ e ∈ rl.perIp, e.2.count ≤ n

theorem slot_bump_count {e : Slot} {n m a b : Nat} (h : e.count ≤ n) : (e.bump m a b).2.count ≤ n + 1 ∧ (n < m → (e.bump m a b).1 = true) := by
  unfold Slot.bump
  split
  · exact ⟨by simp, fun _ => rfl⟩
  · split
    · exact ⟨by simp only; omega, fun h => by omega⟩
    · exact ⟨by simp only; omega, fun _ => rfl⟩

theorem lookupIp_mem {l : List (Ip × Slot)} {ip : Ip} {s : Slot} (h : lookupIp l ip = some s) : (ip, s) ∈ l := by
  induction l with
  | nil => simp [lookupIp] at h
  | cons e rest ih =>
    unfold lookupIp at h
    split at h
    · rename_i he; cases h; subst he; simp
    · exact List.mem_cons_of_mem _ (ih h)

theorem setIp_mem {l : List (Ip × Slot)} {ip : Ip} {s : Slot} {e : Ip × Slot} (h : e ∈ setIp l ip s) : e = (ip, s) ∨ e ∈ l := by
  induction l with
  | nil => simpa [setIp] using h
  | cons a rest ih =>
    unfold setIp at h
    split at h
    · rcases List.mem_cons.1 h with h | h
      · exact .inl h
      · exact .inr (List.mem_cons_of_mem _ h)
    · rcases List.mem_cons.1 h with h | h
      · exact .inr (by rw [h]; simp)
      · rcases ih h with h | h
        · exact .inl h
        · exact .inr (List.mem_cons_of_mem _ h)

theorem CountsAtMost.mono {n m : Nat} {rl : RateLimiter} (h : CountsAtMost n rl) (hm : n ≤ m) : CountsAtMost m rl :=
  ⟨Nat.le_trans h.1 hm, fun e he => Nat.le_trans (h.2 e he) hm⟩

theorem CountsAtMost.check {n : Nat} {rl : RateLimiter} (h : CountsAtMost n rl) (ip : Ip) (m g : Nat) (rd : Readings) :
    CountsAtMost (n + 1) (rl.check ip m g rd).2 ∧ (n < m → n < g → (rl.check ip m g rd).1 = .ok ()) := by
  have hslot : ((lookupIp (dropOld rl.perIp rd) ip).getD ⟨rd.insert, 0⟩).count ≤ n := by
    cases hl : lookupIp (dropOld rl.perIp rd) ip with
    | none => simp
    | some s =>
      have := lookupIp_mem hl
      unfold dropOld at this
      exact h.2 _ ((List.mem_filter.1 this).1)
  unfold RateLimiter.check
  simp only
  have h1 := slot_bump_count (m := m) (a := rd.ipElapsed) (b := rd.ipReset) hslot
  have h2 := slot_bump_count (m := g) (a := rd.globalElapsed) (b := rd.globalReset) h.1
  generalize ((lookupIp (dropOld rl.perIp rd) ip).getD ⟨rd.insert, 0⟩).bump m rd.ipElapsed rd.ipReset = x at h1
  generalize rl.global.bump g rd.globalElapsed rd.globalReset = y at h2
  have hper : ∀ e ∈ setIp (dropOld rl.perIp rd) ip x.2, e.2.count ≤ n + 1 := by
    intro e he
    rcases setIp_mem he with rfl | he
    · exact h1.1
    · unfold dropOld at he
      exact Nat.le_succ_of_le (h.2 _ ((List.mem_filter.1 he).1))
  obtain ⟨okI, sI⟩ := x
  obtain ⟨okG, sG⟩ := y
  cases okI with
  | false => exact ⟨⟨Nat.le_succ_of_le h.1, hper⟩, fun h => absurd (h1.2 h) (by simp)⟩
  | true =>
    cases okG with
    | false => exact ⟨⟨h2.1, hper⟩, fun _ h => absurd (h2.2 h) (by simp)⟩
    | true => exact ⟨⟨h2.1, hper⟩, fun _ _ => rfl⟩

/-! ## The gate that a server is -/

/-- What the running server shares with the open gate. -/
structure SameGate (s : Server) (g : OpenGate) : Prop where
  cfg : s.cfg = g.cfg
  handlers : s.handlers = g.keys.map (fun k => (k.id, k))
  ids : (g.keys.map (·.id)).Nodup
  numbers : (fun k => s.bl.map.get k) = g.numbers
  seen : CountsAtMost g.seen s.rl

theorem SameGate.lets_iff {A : Aead} {s : Server} {g : OpenGate} (h : SameGate s g) {now : Nat} {src : Ip} {dg : List Byte} {d : ClientData} :
    Lets A g now src dg d ↔ Acceptable A s now src dg d := by
  constructor
  · rintro ⟨h1, ⟨k, hk, hid, hs⟩, h3, h4, h5, h6⟩
    refine ⟨h1, ⟨k, ?_, hs⟩, ?_, by rw [h.cfg]; exact h4, by rw [h.cfg]; exact h5, h6⟩
    · rw [h.handlers, ← hid]; exact get_of_mem h.ids hk
    · rw [← h.numbers] at h3; exact h3
  · rintro ⟨h1, ⟨k, hk, hs⟩, h3, h4, h5, h6⟩
    rw [h.handlers] at hk
    have hm := handlers_mem_of_get hk
    obtain ⟨k', hk', he⟩ := List.mem_map.1 hm
    obtain ⟨e1, rfl⟩ := Prod.mk.inj he
    exact ⟨h1, ⟨k', hk', e1, hs⟩, by rw [← h.numbers]; exact h3, by rw [← h.cfg]; exact h4, by rw [← h.cfg]; exact h5, h6⟩

/-- The installation `s` looks like the gate `g`. -/
structure Shows (pw : Bool) (dir : Path) (s : Sys) (g : Gate) : Prop where
  disk : numbersIn (s.w.fs (blocklistPath dir)) = g.disk
  back : pw = true → ∀ f ∈ s.w.pend (blocklistPath dir), numbersIn f ∈ g.back
  synced : pw = true → ∀ f ∈ cands true s.w (blocklistPath dir), ∀ file, f = some file → file.synced = true
  running : (s.srv = none ∧ g.running = none) ∨ ∃ srv o, s.srv = some srv ∧ g.running = some o ∧ SameGate srv o

theorem not_trouble {n : Nat} {env : Env} {m : Numbers} (h : ¬ Trouble n env m) :
    (∀ c ∈ env.oracle, c = .ok) ∧ ¬ m.Many ∧ ∃ (ts : List U128) (c : List (Option U128)), ts.length = n ∧ env.clock = ts.map some ++ c := by
  unfold Trouble at h
  refine ⟨fun c hc => Classical.byContradiction (fun hne => h (.inl ⟨c, hc, hne⟩)), fun hm => h (.inr (.inl hm)), Classical.byContradiction (fun hn => h (.inr (.inr hn)))⟩

theorem not_trouble_two {env : Env} {m : Numbers} (h : ¬ Trouble 2 env m) : (∀ c ∈ env.oracle, c = .ok) ∧ ¬ m.Many ∧ ∃ (a b : U128) (c : List (Option U128)), env.clock = some a :: some b :: c := by
  obtain ⟨h1, h2, ts, c, h3, h4⟩ := not_trouble h
  match ts, h3 with
  | [a, b], _ => exact ⟨h1, h2, a, b, c, h4⟩


theorem length_of_not_many {m : BlMap} (hm : m.Wf) (h : ¬ Numbers.Many (fun k => m.get k)) : m.length < 2 ^ 32 :=
  Nat.lt_of_not_le (fun hl => h (many_of_length hm hl))

/-! ## Starting -/

theorem blCreate_loaded_ok (dir : Path) (order : BlMap → BlMap) (hord : ∀ m, (order m).Perm m) (w : World) (hok : AllOk w) {m : BlMap} (hl : Loaded w (blocklistPath dir) m) (hlen : m.length < 2 ^ 32)
    (t : U128) (c : List (Option U128)) (hclk : w.clock = some t :: c) :
    wp (Blocklist.create dir order) w (fun o w' => o = .ok ⟨m, blocklistPath dir, order⟩ ∧ AllOk w' ∧ w'.clock = c) := by
  have hwf := hl.wf
  have fin : ∀ w1 : World, AllOk w1 → w1.clock = w.clock → wp (do (Blocklist.mk m (blocklistPath dir) order).save; pure (Blocklist.mk m (blocklistPath dir) order)) w1
      (fun o w' => o = .ok ⟨m, blocklistPath dir, order⟩ ∧ AllOk w' ∧ w'.clock = c) := by
    intro w1 ho hc
    rw [wp_bind]
    refine wp_mono (save_ok ⟨m, blocklistPath dir, order⟩ ⟨hwf, hord⟩ hlen w1 ho t c (by rw [hc, hclk])) ?_
    rintro o w' ⟨rfl, h1, h2⟩
    exact ⟨rfl, h1, h2⟩
  unfold Blocklist.create pathExists
  simp only
  rw [wp_bind, wp_bind, wp_attempt]
  apply wp_atomicCall_ok _ _ _ hok
  intro o ho
  rcases hl with ⟨hf, rfl⟩ | ⟨f, hf, hd⟩
  · simp only [id]
    rw [wp_bind, wp_peek]
    simp only [hf, Option.isSome_none, wp_pure, Bool.false_eq_true, if_false]
    rw [wp_bind, wp_pure]
    exact fin { w with log := w.log ++ [.file .stat (blocklistPath dir)], oracle := o } ho rfl
  · simp only [id]
    rw [wp_bind, wp_peek]
    simp only [hf, Option.isSome_some, wp_pure, if_true]
    unfold readFile
    rw [wp_bind, wp_bind]
    apply wp_atomicCall_ok
    · exact ho
    intro o2 ho2
    simp only [id]
    rw [wp_bind, wp_peek]
    simp only [hf, wp_pure, hd]
    rw [wp_bind, wp_pure]
    exact fin { w with log := (w.log ++ [.file .stat (blocklistPath dir)]) ++ [.file .read (blocklistPath dir)], oracle := o2 } ho2 rfl

/-- With working system calls, good keys and readable replay state, the server starts. -/
theorem create_loaded_ok (cfg : ServerCfg) (env : StartEnv) (hord : ∀ m, (env.order m).Perm m) (hs : Handlers) (hh : createCryptoHandlers env.dir = .ok hs) (hbind : env.bindOk = true) (w : World) (hok : AllOk w)
    {m : BlMap} (hl : Loaded w (blocklistPath cfg.blDir) m) (t1 floor t3 : U128) (c : List (Option U128))
    (hmany : ¬ Numbers.Many (fun k => (m.get k).or (if k ∈ hs.map Prod.fst then some floor else none))) (hclk : w.clock = some t1 :: some floor :: some t3 :: c) :
    wp (Server.create cfg env) w (fun o _ => ∃ s, o = .ok s) := by
  have hm : ¬ Numbers.Many (fun k => m.get k) := by
    intro h
    refine hmany (fun l hl => h l (fun k hk => hl k ?_))
    cases hg : m.get k with
    | none => exact absurd hg hk
    | some v => simp [hg]
  unfold Server.create
  rw [wp_bind, wp_ofExcept, hh]
  simp only
  rw [wp_bind]
  refine wp_mono (blCreate_loaded_ok cfg.blDir env.order hord w hok hl (length_of_not_many hl.wf hm) t1 _ hclk) ?_
  rintro o w1 ⟨rfl, a1, c1⟩
  simp only
  rw [wp_bind, wp_nowNanos_some _ _ _ c1]
  simp only
  obtain ⟨s1, s2, s3, s4⟩ := seedAll_spec ⟨m, blocklistPath cfg.blDir, env.order⟩ hs floor
  show wp (do
    (seedAll ⟨m, blocklistPath cfg.blDir, env.order⟩ hs floor).save
    if env.bindOk = true then
      pure ({ cfg, handlers := hs, bl := seedAll ⟨m, blocklistPath cfg.blDir, env.order⟩ hs floor, rl := RateLimiter.new env.mono, throttle := ⟨none, 0⟩ } : Server)
    else Act.throw .io) _ _
  generalize hb : seedAll ⟨m, blocklistPath cfg.blDir, env.order⟩ hs floor = b at s1 s2 s3 s4
  have hwf := s3 ⟨hl.wf, hord⟩ (createCryptoHandlers_good hh)
  have hlen : b.map.length < 2 ^ 32 := length_of_not_many hwf.map (by rw [show (fun k => b.map.get k) = _ from funext s4]; exact hmany)
  rw [wp_bind]
  refine wp_mono (save_ok b hwf hlen { w1 with clock := some t3 :: c } a1 t3 c rfl) ?_
  rintro o w2 ⟨rfl, _, _⟩
  simp only
  rw [if_pos hbind, wp_pure]
  exact ⟨_, rfl⟩

/-! ## One event -/

theorem forwards_created {cfg : ServerCfg} {senv : StartEnv} {w w' : World} {o : Out Server} (h : Created cfg senv w o w') : forwards w'.log = forwards w.log := by
  obtain ⟨l, h1, h2⟩ := h.log
  rw [h1, forwards_append, forwards_fileEvents h2, List.append_nil]

theorem taken_loaded {w w' : World} {P : Path} {m : BlMap} (h : Taken w w' P m) (hstat : .statFailed P ∉ w'.log) : Loaded w P m := by
  rcases h with h | ⟨_, h⟩
  · exact h
  · exact absurd h hstat

theorem fill_seeded {m m' : BlMap} {keys : List CryptoHandler} {t : U128} (h : Seeded m m' (keys.map (·.id)) t) : (fun k => m'.get k) = Numbers.fill (fun k => m.get k) keys t :=
  funext h.get

/-- What a start does to the gate. -/
theorem gate_start {A : Aead} {pw : Bool} {w w' : World} {g : Gate} {env : Env} {cfg : ServerCfg} {senv : StartEnv} {o : Out Server} (hord : ∀ m, (senv.order m).Perm m)
    (hS : Shows pw cfg.blDir ⟨w, none⟩ g) (h : Server.create cfg senv (w.withEnv env []) = (o, w')) (hstat : .statFailed (blocklistPath cfg.blDir) ∉ w'.log) (hsync : SyncOk pw cfg.blDir w'.log) :
    ∃ g', GateStep A g (.start env cfg senv) [] g' ∧ Shows pw cfg.blDir ⟨w', (match o with | .ok s => some s | _ => none)⟩ g' := by
  have hc := created_of_step hord h
  obtain ⟨run, d, back⟩ := g
  have hrun : run = none := by
    rcases hS.running with ⟨_, h⟩ | ⟨srv, o, h, _⟩
    · exact h
    · cases h
  subst hrun
  have hdisk : numbersIn (w.fs (blocklistPath cfg.blDir)) = d := hS.disk
  have hload : ∀ {m}, Loaded (w.withEnv env []) (blocklistPath cfg.blDir) m → d = some (fun k => m.get k) := by
    intro m hl
    rw [← hdisk]
    exact numbersIn_loaded (w := w.withEnv env []) hl
  have failed : ∀ o, Server.create cfg senv (w.withEnv env []) = (o, w') → Created cfg senv (w.withEnv env []) o w' → (∀ s, o ≠ .ok s) →
      ∃ g', GateStep A ⟨none, d, back⟩ (.start env cfg senv) [] g' ∧ Shows pw cfg.blDir ⟨w', none⟩ g' := by
    intro o h hc hne
    have hG := hc.keeps pw (fun f => numbersIn f ∈ d :: back ∨ ∃ n keys t n', d = some n ∧ LoadsKeys senv.dir keys ∧ some t ∈ env.clock ∧ n.Partly keys t n' ∧ numbersIn f = some n') ?_ ?_
    · refine ⟨⟨none, numbersIn (w'.fs (blocklistPath cfg.blDir)), if pw then (w'.pend (blocklistPath cfg.blDir)).map numbersIn else []⟩, .notStarted _ _ _ _ env cfg senv ?_ ?_, rfl, ?_, ?_, .inl ⟨rfl, rfl⟩⟩
      · refine Classical.or_iff_not_imp_left.2 (fun h1 => Classical.or_iff_not_imp_left.2 (fun h2 => Classical.or_iff_not_imp_left.2 (fun h3 => ?_)))
        obtain ⟨n, hn⟩ := Option.ne_none_iff_exists'.1 h1
        obtain ⟨keys, hk⟩ := Classical.not_not.1 h2
        refine ⟨n, keys, 0, hn, hk, Classical.byContradiction (fun ht => ?_)⟩
        obtain ⟨t1, t2, ts, c0, t3, t4⟩ := not_trouble ht
        obtain ⟨a, b, c', hts⟩ : ∃ a b c, ts = [a, b, c] := by
          match ts, t3 with
          | [a, b, c], _ => exact ⟨a, b, c, rfl⟩
        subst hts
        obtain ⟨m, hl, hm⟩ := loaded_of_numbers (w := w.withEnv env []) (P := blocklistPath cfg.blDir) (n := n) (by rw [← hn]; exact hdisk)
        have hok : AllOk (w.withEnv env []) := t1
        have := create_loaded_ok cfg senv hord _ (loadsKeys_iff.2 ⟨keys, hk, rfl⟩) (by simpa using h3) _ hok hl a b c' _ ?_ t4
        · unfold wp at this
          rw [h] at this
          obtain ⟨s, hs⟩ := this
          exact hne s hs
        · rw [map_fst_ids]
          intro hmany
          refine t2 (fun l hl' => hmany l (fun k hk' => hl' k ?_))
          rw [hm]
          unfold Numbers.fill
          simp only at hk' ⊢
          cases hg : m.get k with
          | some v => simp
          | none =>
            rw [hg] at hk'
            by_cases hmem : k ∈ keys.map (·.id)
            · rw [if_pos hmem]
              nofun
            · rw [if_neg hmem] at hk'
              exact absurd rfl hk'
      · intro x hx
        obtain ⟨f, hf, rfl⟩ : ∃ f ∈ cands pw w' (blocklistPath cfg.blDir), numbersIn f = x := by
          rcases List.mem_cons.1 hx with rfl | hx
          · exact ⟨_, List.mem_cons_self, rfl⟩
          · cases pw with
            | false => simp at hx
            | true =>
              obtain ⟨f, hf, rfl⟩ := List.mem_map.1 hx
              exact ⟨f, List.mem_cons_of_mem _ hf, rfl⟩
        exact hG f hf
      · intro hp f hf
        show _ ∈ if pw = true then _ else _
        rw [if_pos hp]
        exact List.mem_map_of_mem hf
      · intro hp
        refine hc.keeps true (fun f => ∀ file, f = some file → file.synced = true) (hS.synced hp) ?_
        rintro m m' keys floor f _ _ _ ⟨file', _, rfl, e2, _⟩ _ file hfile
        cases hfile
        exact e2
    · intro f hf
      refine .inl ?_
      rcases List.mem_cons.1 hf with rfl | hf
      · rw [show (w.withEnv env []).fs (blocklistPath cfg.blDir) = w.fs (blocklistPath cfg.blDir) from rfl, hdisk]
        exact List.mem_cons_self
      · cases pw with
        | false => simp at hf
        | true => exact List.mem_cons_of_mem _ (hS.back rfl f hf)
    · intro m m' ids floor f hT hseed hfl hd hkeys
      have hm := hload (taken_loaded hT hstat)
      rw [numbersIn_holds hd]
      cases ids with
      | nil =>
        refine .inl ?_
        have : (fun k => m'.get k) = fun k => m.get k := by
          funext k
          rw [hseed.get]
          simp
        rw [this, hm]
        exact List.mem_cons_self
      | cons a rest =>
        obtain ⟨hs, hh, _⟩ := hkeys a List.mem_cons_self
        obtain ⟨keys, hk, rfl⟩ := loadsKeys_iff.1 hh
        refine .inr ⟨_, keys, floor, _, hm, hk, hfl.resolve_right nofun, ?_, rfl⟩
        intro k
        simp only
        rw [hseed.get]
        cases hg : m.get k with
        | some v => exact .inl rfl
        | none =>
          by_cases hmem : k ∈ a :: rest
          · refine .inr ⟨rfl, ?_, by rw [if_pos hmem]; rfl⟩
            obtain ⟨hs', hh', hk'⟩ := hkeys k hmem
            rw [hh] at hh'
            cases hh'
            rwa [map_fst_ids] at hk'
          · exact .inl (by rw [if_neg hmem]; rfl)
  cases o with
  | ok s =>
    obtain ⟨h1, h2, h3, h4, h5, h6, h7, _, m, t, h9, h10, h11⟩ := hc.ok s rfl
    rw [h3] at h5 h6 h9
    obtain ⟨keys, hk, hks⟩ := loadsKeys_iff.1 h2
    rw [hks, map_fst_ids] at h11
    rw [hload (taken_loaded h9 hstat)]
    have hn := fill_seeded h11
    refine ⟨_, .started _ _ env cfg senv keys t hk h10, ?_, ?_, ?_, .inr ⟨s, _, rfl, rfl, h1, hks, ?_, hn, ?_⟩⟩
    · show numbersIn _ = some _
      rw [numbersIn_holds h5, hn]
    · intro hp f hf
      rw [show w'.pend (blocklistPath cfg.blDir) = [] from h6 (hsync hp)] at hf
      cases hf
    · intro hp f hf file hfile
      unfold cands at hf
      rw [show w'.pend (blocklistPath cfg.blDir) = [] from h6 (hsync hp)] at hf
      simp only [if_true, List.mem_singleton] at hf
      obtain ⟨file', _, e1, e2, _⟩ := h5
      subst hf
      rw [e1] at hfile
      cases hfile
      exact e2
    · obtain ⟨es, _, _, _, hn⟩ := hk
      exact hn
    · rw [h7]
      exact ⟨Nat.le_refl _, nofun⟩
  | err e => exact failed _ h hc nofun
  | crash => exact failed _ h hc nofun

/-- What a datagram does to the gate. -/
theorem gate_packet {A : Aead} {pw : Bool} {dir : Path} {w w' : World} {s : Server} {g : Gate} {env : Env} {dg : List Byte} {src : Ip} {rd : Readings} {tLog : Nat} {o : Out (Server × Except Err Unit)}
    (hS : Shows pw dir ⟨w, some s⟩ g) (hlive : Live pw dir w s) (h : s.handleDatagram A dg src rd tLog (w.withEnv env (dg.take MSG_SIZE)) = (o, w')) (hsync : SyncOk pw dir w'.log) :
    ∃ out g', GateStep A g (.packet env dg src rd tLog) out g' ∧ Shows pw dir ⟨w', o.server⟩ g' ∧ forwards w'.log = forwards w.log ++ out := by
  have hw := handleDatagram_spec A s hlive.wf dg src rd tLog (w.withEnv env (dg.take MSG_SIZE))
  unfold wp at hw
  rw [h] at hw
  clear h
  obtain ⟨o1, hw, ho⟩ := hw
  obtain ⟨run, d, back⟩ := g
  obtain ⟨G, rfl, hG⟩ : ∃ G, run = some G ∧ SameGate s G := by
    rcases hS.running with ⟨h, _⟩ | ⟨srv, o, h1, h2, h3⟩
    · cases h
    · cases h1; exact ⟨o, h2, h3⟩
  have hP := hlive.path
  have hdisk : numbersIn (w.fs (blocklistPath dir)) = d := hS.disk
  have hback : pw = true → ∀ f ∈ w.pend (blocklistPath dir), numbersIn f ∈ back := hS.back
  have hsynced : pw = true → ∀ f ∈ cands true w (blocklistPath dir), ∀ file, f = some file → file.synced = true := hS.synced
  have hput : ∀ r : ClientData, (fun k => (s.bl.map.insert (dg.take 8) r.counter).get k) = G.numbers.put (dg.take 8) r.counter := by
    intro r
    rw [put_insert, hG.numbers]
  -- without trouble, keeping the number works
  have hworks : ∀ {now : U128} {rl c} {r : ClientData} {o : Out Unit} {w1 : World}, ActsWith A s dg src rd (w.withEnv env (dg.take MSG_SIZE)) rl now c r →
      Saved s.bl.path (s.bl.map.insert (dg.take 8) r.counter) o { w.withEnv env (dg.take MSG_SIZE) with clock := c } w1 → ¬ Trouble 2 env G.numbers → o = .ok () ∧ AllOk w1 := by
    intro now rl c r o w1 ha hs ht
    obtain ⟨t1, t2, a, b, c', t3⟩ := not_trouble_two ht
    have hclk : env.clock = some now :: c := ha.clock
    rw [t3] at hclk
    cases hclk
    obtain ⟨v, hv, _⟩ := ha.acc.fresh
    refine hs.works t1 ⟨b, c', rfl⟩ ?_
    rw [BlMap.length_insert hv]
    exact length_of_not_many hlive.wf.map (by rw [hG.numbers]; exact t2)
  have hlets : ∀ {now : U128} {rl c} {r : ClientData}, ActsWith A s dg src rd (w.withEnv env (dg.take MSG_SIZE)) rl now c r → env.clock.head? = some (some now) ∧ Lets A G now.toNat src dg r := by
    intro now rl c r ha
    refine ⟨?_, hG.lets_iff.2 ha.acc⟩
    have hclk : env.clock = some now :: c := ha.clock
    rw [hclk]
    rfl
  -- the rate limiter after a datagram
  have hrate : ∀ {rl : RateLimiter}, (rl = s.rl ∨ rl = (s.rl.check (normalizeIp src) s.cfg.maxPerIp s.cfg.maxGlobal rd).2) → CountsAtMost (G.seen + 1) rl := by
    rintro rl (rfl | rfl)
    · exact hG.seen.mono (Nat.le_succ _)
    · exact (hG.seen.check _ _ _ _).1
  have hrateOk : ∀ {rl : RateLimiter}, RateOk s src rd rl → CountsAtMost (G.seen + 1) rl := fun hr => hrate (.inr (by rw [show s.rl.check _ _ _ _ = _ from hr]))
  -- what comes out
  have hcomes : ∀ {now : U128} {rl c} {r : ClientData} {w1 : World} {o : Out Unit}, ActsWith A s dg src rd (w.withEnv env (dg.take MSG_SIZE)) rl now c r →
      Saved s.bl.path (s.bl.map.insert (dg.take 8) r.counter) (.ok ()) { w.withEnv env (dg.take MSG_SIZE) with clock := c } w1 →
      Sent r.counter { cmdHash := r.cmdHash, ip := r.srcIp.getD (normalizeIp src) } o w1 w' → ∃ out, Comes env G.numbers src dg r out ∧ forwards w'.log = forwards w.log ++ out := by
    intro now rl c r w1 o ha hs hf
    have hcur : w1.cur = dg.take 94 := hs.cur
    have hfw : forwards w1.log = forwards w.log := hs.forwards
    obtain ⟨n, l, _, hl, hl'⟩ := hf.log
    refine ⟨forwards l, ⟨?_, ?_⟩, ?_⟩
    · rcases hl' with rfl | ⟨k, rfl⟩
      · exact .inl rfl
      · exact .inr ⟨k, by rw [hcur]; rfl⟩
    · intro ht
      obtain ⟨_, hlog, _⟩ := hf.allOk (hworks ha hs ht).2
      have e1 : forwards w'.log = forwards w1.log ++ [(dg.take 94, r.counter, message r (normalizeIp src))] := by
        rw [hlog, forwards_append, hcur]; rfl
      have e2 : forwards w'.log = forwards w1.log ++ forwards l := by
        rw [hl, forwards_append, forwards_append, forwards_connect, List.append_nil]
      rw [e2] at e1
      exact List.append_cancel_left e1
    · rw [hl, forwards_append, forwards_append, forwards_connect, List.append_nil, hfw]
  -- the files after the number is kept
  have hkept : ∀ {now : U128} {rl c} {r : ClientData} {w1 : World} {o : Out Unit}, ActsWith A s dg src rd (w.withEnv env (dg.take MSG_SIZE)) rl now c r →
      Saved s.bl.path (s.bl.map.insert (dg.take 8) r.counter) (.ok ()) { w.withEnv env (dg.take MSG_SIZE) with clock := c } w1 →
      Sent r.counter { cmdHash := r.cmdHash, ip := r.srcIp.getD (normalizeIp src) } o w1 w' → DiskHolds (w'.fs (blocklistPath dir)) (s.bl.map.insert (dg.take 8) r.counter) ∧
        (pw = true → w'.pend (blocklistPath dir) = []) := by
    intro now rl c r w1 o ha hs hf
    rw [hP] at hs
    rcases hs.result with ⟨_, _, h3⟩ | ⟨h1, _, _, h4⟩
    · exact absurd rfl h3
    · refine ⟨by rw [hf.fs]; exact h1, fun hp => ?_⟩
      rw [hf.pend]
      refine h4 rfl (fun hm => hsync hp ?_)
      obtain ⟨n, l, _, hl, _⟩ := hf.log
      rw [hl]
      exact List.mem_append_left _ (List.mem_append_left _ hm)
  have hsync' : ∀ {r : ClientData}, DiskHolds (w'.fs (blocklistPath dir)) (s.bl.map.insert (dg.take 8) r.counter) → (pw = true → w'.pend (blocklistPath dir) = []) →
      pw = true → ∀ f ∈ cands true w' (blocklistPath dir), ∀ file, f = some file → file.synced = true := by
    intro r h1 h2 hp f hf file hfile
    unfold cands at hf
    rw [h2 hp] at hf
    simp only [if_true, List.mem_singleton] at hf
    obtain ⟨file', _, e1, e2, _⟩ := h1
    subst hf
    rw [e1] at hfile
    cases hfile
    exact e2
  cases hw with
  | rejected e rl c he hn hrl =>
    rcases ho with ⟨_, h⟩ | ⟨s1, s2, r, h, rfl, t, rfl⟩
    · cases h
    cases h
    refine ⟨[], _, .ignored G d back env dg src rd tLog ?_, ⟨hdisk, hback, hsynced, .inr ⟨_, _, rfl, rfl, hG.cfg, hG.handlers, hG.ids, hG.numbers, hrate (hrl.imp And.left id)⟩⟩, by simp [World.withEnv]⟩
    refine Classical.or_iff_not_imp_left.2 (fun h1 => Classical.or_iff_not_imp_right.2 (fun h2 => ?_))
    intro now r hclk hL
    obtain ⟨h3, h4⟩ := not_or.1 h2
    obtain ⟨_, hck⟩ := hG.seen.check (normalizeIp src) s.cfg.maxPerIp s.cfg.maxGlobal rd
    have hck := hck (by rw [hG.cfg]; omega) (by rw [hG.cfg]; omega)
    obtain ⟨c, hc⟩ : ∃ c, env.clock = some now :: c := by
      cases hcl : env.clock with
      | nil => rw [hcl] at hclk; cases hclk
      | cons a rest => rw [hcl] at hclk; cases hclk; exact ⟨rest, rfl⟩
    exact hn (s.rl.check (normalizeIp src) s.cfg.maxPerIp s.cfg.maxGlobal rd).2 now c r ⟨Prod.ext hck rfl, hc, hG.lets_iff.1 hL⟩
  | saveFailed rl now c r e w' ha hs =>
    rcases ho with ⟨_, h⟩ | ⟨s1, s2, r', h, rfl, t, rfl⟩
    · cases h
    cases h
    have hres : w'.fs (blocklistPath dir) = w.fs (blocklistPath dir) ∧ w'.pend (blocklistPath dir) = w.pend (blocklistPath dir) := by
      rcases hs.result with ⟨h1, h2, _⟩ | ⟨_, _, h3, _⟩
      · rw [hP] at h1 h2; exact ⟨h1, h2⟩
      · rcases h3 with h3 | h3 <;> cases h3
    refine ⟨[], _, .ignored G d back env dg src rd tLog (.inl (Classical.byContradiction (fun ht => nomatch (hworks ha hs ht).1))),
      ⟨by show numbersIn (w'.fs _) = d; rw [hres.1, hdisk], fun hp => by show ∀ f ∈ w'.pend _, _; rw [hres.2]; exact hback hp, fun hp => ?_,
        .inr ⟨_, _, rfl, rfl, hG.cfg, hG.handlers, hG.ids, hG.numbers, hrateOk ha.rate⟩⟩, by rw [hs.forwards, List.append_nil]; rfl⟩
    have := hsynced hp
    unfold cands at this ⊢
    simp only at this ⊢
    rw [hres.1, hres.2]
    exact this
  | saveCrashed rl now c r w' ha hs =>
    rcases ho with ⟨rfl, h⟩ | ⟨s1, s2, r', h, rfl, t, rfl⟩
    case inr => cases h
    obtain ⟨hn, hL⟩ := hlets ha
    have hs' := hs
    rw [hP] at hs'
    refine ⟨[], ⟨none, numbersIn (w'.fs (blocklistPath dir)), if pw then (w'.pend (blocklistPath dir)).map numbersIn else []⟩,
      .killedKeeping G d _ back _ env dg src rd tLog now r hn hL (Classical.byContradiction (fun ht => nomatch (hworks ha hs ht).1)) ?_, ⟨rfl, ?_, ?_, .inl ⟨rfl, rfl⟩⟩, by rw [hs.forwards, List.append_nil]; rfl⟩
    · intro x hx
      obtain ⟨f, hf, rfl⟩ : ∃ f ∈ cands pw w' (blocklistPath dir), numbersIn f = x := by
        rcases List.mem_cons.1 hx with rfl | hx
        · exact ⟨_, List.mem_cons_self, rfl⟩
        · cases pw with
          | false => simp at hx
          | true =>
            obtain ⟨f, hf, rfl⟩ := List.mem_map.1 hx
            exact ⟨f, List.mem_cons_of_mem _ hf, rfl⟩
      refine hs'.cands (pw := pw) (G := fun f => numbersIn f ∈ d :: back ∨ numbersIn f = some (G.numbers.put (dg.take 8) r.counter)) ?_ ?_ f hf
      · intro f hf
        rw [numbersIn_holds hf, hput]
        exact .inr rfl
      · intro f hf
        refine .inl ?_
        rcases List.mem_cons.1 hf with rfl | hf
        · rw [← hdisk]
          exact List.mem_cons_self
        · cases pw with
          | false => simp at hf
          | true => exact List.mem_cons_of_mem _ (hback rfl f hf)
    · intro hp f hf
      show _ ∈ if pw = true then _ else _
      rw [if_pos hp]
      exact List.mem_map_of_mem hf
    · intro hp
      refine hs'.cands (pw := true) (G := fun f => ∀ file, f = some file → file.synced = true) ?_ (hsynced hp)
      rintro f ⟨file', _, rfl, e2, _⟩ file hfile
      cases hfile
      exact e2
  | acted rl now c r w1 w' ha hs hf =>
    rcases ho with ⟨_, h⟩ | ⟨s1, s2, r', h, rfl, t, rfl⟩
    · cases h
    cases h
    obtain ⟨hn, hL⟩ := hlets ha
    obtain ⟨out, ho1, ho2⟩ := hcomes ha hs hf
    obtain ⟨k1, k2⟩ := hkept ha hs hf
    refine ⟨out, _, .through G d back env dg src rd tLog now r out hn hL ho1, ⟨?_, ?_, hsync' k1 k2, .inr ⟨_, _, rfl, rfl, hG.cfg, hG.handlers, hG.ids, hput r, hrateOk ha.rate⟩⟩, ho2⟩
    · show numbersIn _ = some _
      rw [numbersIn_holds k1, hput]
    · intro hp f hf
      rw [show w'.pend (blocklistPath dir) = [] from k2 hp] at hf
      cases hf
  | sendCrashed rl now c r w1 w' ha hs hf =>
    rcases ho with ⟨rfl, h⟩ | ⟨s1, s2, r', h, rfl, t, rfl⟩
    case inr => cases h
    obtain ⟨hn, hL⟩ := hlets ha
    obtain ⟨out, ho1, ho2⟩ := hcomes ha hs hf
    obtain ⟨k1, k2⟩ := hkept ha hs hf
    refine ⟨out, _, .killedHandingOver G d back env dg src rd tLog now r out hn hL (Classical.byContradiction (fun ht => nomatch (hf.allOk (hworks ha hs ht).2).1)) ho1,
      ⟨?_, ?_, hsync' k1 k2, .inl ⟨rfl, rfl⟩⟩, ho2⟩
    · show numbersIn _ = some _
      rw [numbersIn_holds k1, hput]
    · intro hp f hf
      rw [show w'.pend (blocklistPath dir) = [] from k2 hp] at hf
      cases hf

theorem gate_step {A : Aead} {pw : Bool} {dir : Path} {s s' : Sys} {e : Ev} {g : Gate} (hst : Step A dir s e s') (hS : Shows pw dir s g) (hlive : ∀ srv, s.srv = some srv → Live pw dir s.w srv)
    (hstat : .statFailed (blocklistPath dir) ∉ s'.w.log) (hsync : SyncOk pw dir s'.w.log) (hpw : e = .power → pw = true) :
    ∃ out g', GateStep A g e out g' ∧ Shows pw dir s' g' ∧ forwards s'.w.log = forwards s.w.log ++ out := by
  cases hst with
  | started w env cfg senv s w' hdir hord h =>
    subst hdir
    obtain ⟨g', h1, h2⟩ := gate_start (A := A) hord hS h hstat hsync
    exact ⟨[], g', h1, h2, by rw [List.append_nil]; exact forwards_created (w := w.withEnv env []) (created_of_step hord h)⟩
  | startFailed w env cfg senv o w' hdir hord h hne =>
    subst hdir
    obtain ⟨g', h1, h2⟩ := gate_start (A := A) hord hS h hstat hsync
    refine ⟨[], g', h1, ?_, by rw [List.append_nil]; exact forwards_created (w := w.withEnv env []) (created_of_step hord h)⟩
    cases o with
    | ok s => exact absurd rfl (hne s)
    | err e => exact h2
    | crash => exact h2
  | packet w s env dg src rd tLog s' r w' h => exact gate_packet hS (hlive _ rfl) h hsync
  | packetCrash w s env dg src rd tLog w' h => exact gate_packet hS (hlive _ rfl) h hsync
  | kill w s => exact ⟨[], _, .kill _ _ _, ⟨hS.disk, hS.back, hS.synced, .inl ⟨rfl, rfl⟩⟩, by simp⟩
  | power w s w' h =>
    obtain ⟨f, hf, hsv⟩ := h.entries (blocklistPath dir)
    have hp := hpw rfl
    have hsame : w'.fs (blocklistPath dir) = f := by
      have := hS.synced hp f (by unfold cands; simpa using hf)
      generalize w'.fs (blocklistPath dir) = f' at hsv
      cases hsv with
      | absent => rfl
      | synced f _ => rfl
      | unsynced f g h => rw [this f rfl] at h; cases h
    refine ⟨[], _, .power _ _ (numbersIn f) _ ?_, ⟨by show numbersIn (w'.fs _) = _; rw [hsame], ?_, ?_, .inl ⟨rfl, rfl⟩⟩, by simp [h.log]⟩
    · rcases List.mem_cons.1 hf with rfl | hf
      · rw [← hS.disk]
        exact List.mem_cons_self
      · exact List.mem_cons_of_mem _ (hS.back hp f hf)
    · intro _ f hf
      rw [show w'.pend _ = [] from h.nothingPending _] at hf
      cases hf
    · intro _ f' hf' file hfile
      unfold cands at hf'
      rw [show w'.pend _ = [] from h.nothingPending _] at hf'
      simp only [if_true, List.mem_singleton] at hf'
      refine hS.synced hp f (by unfold cands; simpa using hf) file ?_
      rw [← hfile, hf', ← hsame]
  | others w w' s hfs hpend hlog =>
    refine ⟨[], g, .others g, ⟨by rw [← hS.disk]; exact congrArg _ hfs, fun hp => by show ∀ f ∈ w'.pend _, _; rw [hpend]; exact hS.back hp, fun hp => ?_, hS.running⟩, by simp [hlog]⟩
    have := hS.synced hp
    unfold cands at this ⊢
    simp only at this ⊢
    rw [hfs, hpend]
    exact this

/-- **C105** (every history of a server installation is one of the gate with one number per key): what is handed to the commander is what comes out of the gate, what is on disk is what the
gate will remember, and the server runs when the gate is open. Excluded are histories in which `stat` of the replay state fails (C16) or, if power is lost, the directory cannot be synced or
the file found at the beginning was not yet durable. -/
theorem C105_server_is_a_gate {A : Aead} {dir : Path} {w : World} {evs : List Ev} {s : Sys} (h : Run A dir ⟨w, none⟩ evs s) (hstat : .statFailed (blocklistPath dir) ∉ s.w.log)
    (hsync : .power ∈ evs → .dirSyncFailed (blocklistPath dir) ∉ s.w.log) (hdur : .power ∈ evs → Durable w (blocklistPath dir)) :
    ∃ g out, GateRun A ⟨none, numbersIn (w.fs (blocklistPath dir)), []⟩ evs out g ∧ forwards s.w.log = forwards w.log ++ out ∧ numbersIn (s.w.fs (blocklistPath dir)) = g.disk ∧
      (s.srv.isSome = g.running.isSome) := by
  classical
  have key : ∀ pw : Bool, (.power ∈ evs → pw = true) → SyncOk pw dir s.w.log → (pw = true → Durable w (blocklistPath dir)) →
      (∃ g out, GateRun A ⟨none, numbersIn (w.fs (blocklistPath dir)), []⟩ evs out g ∧ forwards s.w.log = forwards w.log ++ out ∧ Shows pw dir s g) ∧ ∀ srv, s.srv = some srv → Live pw dir s.w srv := by
    intro pw
    clear hsync hdur
    generalize hs0 : (⟨w, none⟩ : Sys) = s0 at h
    induction h with
    | nil =>
      subst hs0
      intro _ _ hd
      refine ⟨⟨_, [], .nil _, by simp, rfl, fun hp f hf => ?_, fun hp f hf file hfile => ?_, .inl ⟨rfl, rfl⟩⟩, nofun⟩
      · rw [show w.pend _ = [] from (hd hp).1] at hf
        cases hf
      · unfold cands at hf
        rw [show w.pend _ = [] from (hd hp).1] at hf
        simp only [if_true, List.mem_singleton] at hf
        subst hf
        exact (hd hp).2 file hfile
    | snoc hr hst ih =>
      subst hs0
      intro hpw hy hd
      have hwf := live_run_false hr nofun
      obtain ⟨l, hl⟩ := hst.log_sub (fun srv hs => (hwf srv hs).wf)
      have hy' := hy
      rw [hl] at hy'
      obtain ⟨⟨g, out, h1, h2, h3⟩, h4⟩ := ih (fun hm => hstat (by rw [hl]; exact List.mem_append_left _ hm)) (fun hm => hpw (List.mem_append_left _ hm)) hy'.mono hd
      obtain ⟨out', g', k1, k2, k3⟩ := gate_step hst h3 h4 hstat hy (fun he => hpw (by simp [he]))
      exact ⟨⟨g', out ++ out', .snoc h1 k1, by rw [k3, h2, List.append_assoc], k2⟩, Live.step hst h4 hy⟩
  obtain ⟨⟨g, out, h1, h2, h3⟩, _⟩ := key (decide (Ev.power ∈ evs)) (by simp) (by intro hp; exact hsync (by simpa using hp)) (by intro hp; exact hdur (by simpa using hp))
  refine ⟨g, out, h1, h2, h3.disk, ?_⟩
  rcases h3.running with ⟨a, b⟩ | ⟨_, _, a, b, _⟩ <;> rw [a, b] <;> rfl

/-! ## What the gate guarantees

These speak about the gate only; by `C105_server_is_a_gate` they hold of the server. -/

/-- Nothing the gate knows or may come to know falls below what came out. -/
structure GateInv (g : Gate) (out : Output) : Prop where
  running : ∀ o, g.running = some o → g.disk = some o.numbers ∧ g.back = []
  above : ∀ n, some n ∈ g.disk :: g.back → ∀ x ∈ out, ∃ v, n (x.1.take 8) = some v ∧ x.2.1.toNat ≤ v.toNat

theorem GateInv.step {A : Aead} {g g' : Gate} {e : Ev} {out out' : Output} (h : GateInv g out) (hst : GateStep A g e out' g') :
    GateInv g' (out ++ out') ∧ (∀ x ∈ out, ∀ y ∈ out', x.1.take 8 = y.1.take 8 → x.2.1.toNat < y.2.1.toNat) ∧ out'.length ≤ 1 := by
  have take8 : ∀ dg : List Byte, (dg.take 94).take 8 = dg.take 8 := fun dg => by rw [List.take_take]; rfl
  -- what is kept after a request was let through
  have put : ∀ {G : OpenGate} {src : Ip} {dg : List Byte} {r : ClientData} {now : Nat} {env : Env} {d : Option Numbers} {back : List (Option Numbers)} {out' : Output}, GateInv ⟨some G, d, back⟩ out →
      Lets A G now src dg r → (out' = [] ∨ ∃ k, out' = [(dg.take 94, r.counter, (message r (normalizeIp src)).take k)]) →
      (∀ x ∈ out ++ out', ∃ v, G.numbers.put (dg.take 8) r.counter (x.1.take 8) = some v ∧ x.2.1.toNat ≤ v.toNat) ∧ (∀ x ∈ out, ∀ y ∈ out', x.1.take 8 = y.1.take 8 → x.2.1.toNat < y.2.1.toNat) ∧ out'.length ≤ 1 := by
    intro G src dg r now env d back out' h hL ho
    obtain ⟨hd, _⟩ := h.running G rfl
    have hab := h.above G.numbers (by rw [show d = some G.numbers from hd]; exact List.mem_cons_self)
    obtain ⟨v, hv, hlt⟩ := hL.newer
    have hold : ∀ x ∈ out, x.1.take 8 = dg.take 8 → x.2.1.toNat < r.counter.toNat := by
      intro x hx hk
      obtain ⟨v', hv', hle⟩ := hab x hx
      rw [hk, hv] at hv'
      cases hv'
      omega
    refine ⟨?_, ?_, ?_⟩
    · intro x hx
      unfold Numbers.put
      rcases List.mem_append.1 hx with hx | hx
      · by_cases hk : x.1.take 8 = dg.take 8
        · rw [if_pos hk]
          exact ⟨_, rfl, Nat.le_of_lt (hold x hx hk)⟩
        · rw [if_neg hk]
          exact hab x hx
      · rcases ho with rfl | ⟨k, rfl⟩
        · cases hx
        · rw [List.mem_singleton.1 hx, take8, if_pos rfl]
          exact ⟨_, rfl, Nat.le_refl _⟩
    · intro x hx y hy hk
      rcases ho with rfl | ⟨k, rfl⟩
      · cases hy
      · rw [List.mem_singleton.1 hy] at hk ⊢
        rw [take8] at hk
        exact hold x hx hk
    · rcases ho with rfl | ⟨k, rfl⟩ <;> simp
  have quiet : (∀ x ∈ out, ∀ y ∈ ([] : Output), x.1.take 8 = y.1.take 8 → x.2.1.toNat < y.2.1.toNat) ∧ ([] : Output).length ≤ 1 := ⟨nofun, by simp⟩
  cases hst with
  | started n back env cfg senv keys t hk ht =>
    refine ⟨⟨?_, ?_⟩, quiet⟩
    · rintro o ho
      cases ho
      exact ⟨rfl, rfl⟩
    · intro n' hn' x hx
      rw [List.append_nil] at hx
      cases List.mem_singleton.1 hn'
      obtain ⟨v, hv, hle⟩ := h.above n List.mem_cons_self x hx
      exact ⟨v, by unfold Numbers.fill; rw [hv]; rfl, hle⟩
  | notStarted d d' back back' env cfg senv why hd =>
    refine ⟨⟨nofun, ?_⟩, quiet⟩
    intro n' hn' x hx
    rw [List.append_nil] at hx
    rcases hd _ hn' with hm | ⟨n, keys, t, n'', rfl, _, _, hp, he⟩
    · exact h.above n' hm x hx
    · cases he
      obtain ⟨v, hv, hle⟩ := h.above n List.mem_cons_self x hx
      refine ⟨v, ?_, hle⟩
      rcases hp (x.1.take 8) with h | ⟨h, _⟩
      · rw [h, hv]
      · rw [hv] at h; cases h
  | ignored G d back env dg src rd tLog why =>
    refine ⟨⟨?_, by rw [List.append_nil]; exact h.above⟩, quiet⟩
    intro o ho
    cases ho
    exact h.running G rfl
  | through G d back env dg src rd tLog now r out'' hn hl hout =>
    obtain ⟨p1, p2⟩ := put (env := env) h hl hout.1
    refine ⟨⟨?_, ?_⟩, p2⟩
    · intro o ho
      cases ho
      exact ⟨rfl, rfl⟩
    · intro n' hn'
      cases List.mem_singleton.1 hn'
      exact p1
  | killedKeeping G d d' back back' env dg src rd tLog now r hn hl ht hd =>
    obtain ⟨p1, p2⟩ := put (env := env) (out' := []) h hl (.inl rfl)
    refine ⟨⟨nofun, ?_⟩, p2⟩
    intro n' hn'
    rcases hd _ hn' with hm | hm
    · rw [List.append_nil]
      exact h.above n' hm
    · cases hm
      exact p1
  | killedHandingOver G d back env dg src rd tLog now r out'' hn hl ht hout =>
    obtain ⟨p1, p2⟩ := put (env := env) h hl hout.1
    refine ⟨⟨nofun, ?_⟩, p2⟩
    intro n' hn'
    cases List.mem_singleton.1 hn'
    exact p1
  | kill G d back => exact ⟨⟨nofun, by rw [List.append_nil]; exact h.above⟩, quiet⟩
  | power G d d' back hd =>
    refine ⟨⟨nofun, ?_⟩, quiet⟩
    intro n' hn'
    rw [List.append_nil]
    rw [List.mem_singleton] at hn'
    exact h.above n' (hn' ▸ hd)
  | others => exact ⟨⟨h.running, by rw [List.append_nil]; exact h.above⟩, quiet⟩

theorem pairwise_short {α : Type} {l : List α} (h : l.length ≤ 1) (R : α → α → Prop) : l.Pairwise R := by
  match l, h with
  | [], _ => exact .nil
  | [x], _ => exact List.pairwise_singleton _ _

/-- **C105** (what comes out of the gate): for each key, the numbers strictly increase, whatever is started, killed or loses power in between. -/
theorem C105_gate_increasing {A : Aead} {d : Option Numbers} {evs : List Ev} {out : Output} {g : Gate} (h : GateRun A ⟨none, d, []⟩ evs out g) :
    out.Pairwise (fun x y => x.1.take 8 = y.1.take 8 → x.2.1.toNat < y.2.1.toNat) := by
  suffices hg : GateInv g out ∧ out.Pairwise (fun x y => x.1.take 8 = y.1.take 8 → x.2.1.toNat < y.2.1.toNat) from hg.2
  generalize hg0 : (⟨none, d, []⟩ : Gate) = g0 at h
  induction h with
  | nil =>
    subst hg0
    exact ⟨⟨nofun, fun _ _ _ hx => nomatch hx⟩, .nil⟩
  | snoc hr hst ih =>
    obtain ⟨h1, h2⟩ := ih
    obtain ⟨h3, h4, h5⟩ := h1.step hst
    refine ⟨h3, List.pairwise_append.2 ⟨h2, pairwise_short h5 _, h4⟩⟩

/-- **C105** (the gate is open): without trouble and while the rate limits are not reached, a datagram comes out exactly if it is a request the gate lets through, whole, and then its number is
the number of its key; otherwise nothing changes. -/
theorem C105_gate_open {A : Aead} {G : OpenGate} {d : Option Numbers} {back : List (Option Numbers)} {env : Env} {dg : List Byte} {src : Ip} {rd : Readings} {tLog : Nat} {out : Output} {g' : Gate}
    (h : GateStep A ⟨some G, d, back⟩ (.packet env dg src rd tLog) out g') (ht : ¬ Trouble 2 env G.numbers) (hip : G.seen < G.cfg.maxPerIp) (hgl : G.seen < G.cfg.maxGlobal)
    {now : U128} (hnow : env.clock.head? = some (some now)) :
    (∃ r, Lets A G now.toNat src dg r ∧ out = [(dg.take 94, r.counter, message r (normalizeIp src))] ∧
      g' = ⟨some { G with numbers := G.numbers.put (dg.take 8) r.counter, seen := G.seen + 1 }, some (G.numbers.put (dg.take 8) r.counter), []⟩) ∨
    ((∀ r, ¬ Lets A G now.toNat src dg r) ∧ out = [] ∧ g' = ⟨some { G with seen := G.seen + 1 }, d, back⟩) := by
  cases h with
  | ignored _ _ _ _ _ _ _ _ why =>
    refine .inr ⟨fun r => ?_, rfl, rfl⟩
    rcases why with h | h | h | h
    · exact absurd h ht
    · exact h now r hnow
    · omega
    · omega
  | through _ _ _ _ _ _ _ _ now' r _ hn hl hout =>
    rw [hnow] at hn
    cases hn
    exact .inl ⟨r, hl, hout.2 ht, rfl⟩
  | killedKeeping _ _ _ _ _ _ _ _ _ _ _ _ _ _ ht' => exact absurd ht' ht
  | killedHandingOver _ _ _ _ _ _ _ _ _ _ _ _ _ ht' => exact absurd ht' ht

/-- **C105** (opening the gate): without trouble, with readable numbers, valid keys and a free port, the gate opens. -/
theorem C105_gate_opens {A : Aead} {n : Numbers} {back : List (Option Numbers)} {env : Env} {cfg : ServerCfg} {senv : StartEnv} {out : Output} {g' : Gate}
    (h : GateStep A ⟨none, some n, back⟩ (.start env cfg senv) out g') {keys : List CryptoHandler} (hk : LoadsKeys senv.dir keys) (hb : senv.bindOk = true) (ht : ∀ t, ¬ Trouble 3 env (n.fill keys t)) :
    ∃ t, some t ∈ env.clock ∧ g' = ⟨some ⟨keys, n.fill keys t, cfg, 0⟩, some (n.fill keys t), []⟩ ∧ out = [] := by
  have uniq : ∀ {ks}, LoadsKeys senv.dir ks → ks = keys := by
    rintro ks ⟨es, h1, h2, _⟩
    obtain ⟨es', h1', h2', _⟩ := hk
    rw [h1] at h1'
    cases h1'
    rw [h2] at h2'
    exact (List.map_inj_right (fun _ _ h => Option.some.inj h)).1 h2'
  cases h with
  | started _ _ _ _ _ ks t hks htc =>
    cases uniq hks
    exact ⟨t, htc, rfl, rfl⟩
  | notStarted _ _ _ _ _ _ _ why _ =>
    rcases why with h | h | h | ⟨n', ks, t, hn, hks, h⟩
    · cases h
    · exact absurd ⟨keys, hk⟩ h
    · rw [hb] at h; cases h
    · cases hn
      cases uniq hks
      exact absurd h (ht t)

/-! ## Examples -/

/-- The gate that `exServer` is. -/
def exGate : OpenGate := ⟨[exKey], fun k => exServer.bl.map.get k, exServer.cfg, 0⟩

theorem exGate_same : SameGate exServer exGate := ⟨rfl, rfl, by decide +kernel, rfl, Nat.le_refl _, nofun⟩

/-- Non-vacuity of `C105_gate_open`: a request that is let through, without trouble and below the limits. -/
example : ∃ r, Lets toyAead exGate 1000 (.v6 0xffff0a000001) exDatagram r := by
  have h := C15_forwards_iff_acceptable toyAead exServer exServer_wf (by decide +kernel) exDatagram (.v6 0xffff0a000001) exReadings
    (exWorld []) (exServer.iteration toyAead exDatagram (.v6 0xffff0a000001) exReadings (exWorld [])).2
    (exServer.iteration toyAead exDatagram (.v6 0xffff0a000001) exReadings (exWorld [])).1 (by simp [AllOk, exWorld]) 1000 2000 [] rfl rfl
  obtain ⟨_, r, hr⟩ := h.1.1 (by rw [ex_forwarded.1]; simp [exWorld, forwards])
  exact ⟨r, exGate_same.lets_iff.2 hr⟩

example : ¬ Trouble 2 ⟨[.ok, .ok], [some 1000, some 1001]⟩ exGate.numbers ∧ exGate.seen < exGate.cfg.maxPerIp ∧ exGate.seen < exGate.cfg.maxGlobal := by
  refine ⟨?_, by decide, by decide⟩
  rintro (⟨c, hc, hne⟩ | h | h)
  · simp at hc
    exact hne hc
  · have := h [exKey.id] (by
      intro k hk
      by_cases he : k = exKey.id
      · simp [he]
      · refine absurd ?_ hk
        show BlMap.get [(exKey.id, 4000)] k = none
        unfold BlMap.get
        rw [if_neg (fun h => he h.symm)]
        rfl)
    simp at this
  · exact h ⟨[1000, 1001], [], rfl, rfl⟩

/-- Non-vacuity of `C105_gate_opens`: a key directory that loads. -/
example : ∃ keys, LoadsKeys exDir keys := by
  have : createCryptoHandlers exDir = .ok [(exKey.id, exKey)] := by decide +kernel
  obtain ⟨keys, h, _⟩ := loadsKeys_iff.1 this
  exact ⟨keys, h⟩

/-- Non-vacuity of `C105_server_is_a_gate` and `C105_gate_increasing`: the history of `exHistory` (restarts, replays, a save that dies, one that fails) is one of the gate, with two requests coming out. -/
example : ∃ g out, GateRun toyAead ⟨none, some (fun _ => none), []⟩ exHistory out g ∧ out.map (fun x => x.2.1) = [5000, 7000] ∧ out.Pairwise (fun x y => x.1.take 8 = y.1.take 8 → x.2.1.toNat < y.2.1.toNat) ∧
    (∀ n, g.disk = some n → n exKey.id = some 7000) := by
  have hnp : Ev.power ∉ exHistory := by simp [exHistory, exStart, exPacket]
  obtain ⟨g, out, h1, h2, h3, _⟩ := C105_server_is_a_gate exHistory_run exHistory_forwards.2.1 (fun h => absurd h hnp) (fun h => absurd h hnp)
  have ho : out = forwards (exHistory.foldl (exec toyAead) ⟨exEmpty, none⟩).w.log := by rw [h2]; rfl
  refine ⟨g, out, h1, by rw [ho]; exact exHistory_forwards.1, C105_gate_increasing h1, ?_⟩
  intro n hn
  rw [hn] at h3
  have hd := exHistory_forwards.2.2
  generalize (exHistory.foldl (exec toyAead) ⟨exEmpty, none⟩).w = w at h3 hd
  unfold Spec.onDisk at hd
  unfold numbersIn at h3
  split at h3
  · rename_i hf
    rw [hf] at hd
    cases hd
  · rename_i f hf
    rw [hf] at hd
    cases hdec : decodeBl f.data with
    | none => rw [hdec] at h3; cases h3
    | some m =>
      simp only [hdec, Option.map_some] at h3
      cases h3
      simpa [hdec] using hd

end Ruroco
