import Verif.Spec.Setup
import Verif.Props.EndToEnd
import Verif.Props.Keys
import Verif.Props.Config
import Verif.Props.Cli

/-! # C97: set up as described, a request runs its command -/

namespace Ruroco

open Spec (IsKeyFile keyOf KeyText KeyDir CommandsEnd ServerReady CommanderReady ClientReady datagrams forwards SameHost NonRoutable spawns ServerSettings CommanderSettings CommandsFile DistinctKeys IsCommand Says PathMeans ClientSays)

/-! ## The programs start -/

theorem seedAll_length (b : Blocklist) (hs : Handlers) (floor : U128) : (seedAll b hs floor).map.length ≤ b.map.length + hs.length := by
  have ins : ∀ (m : BlMap) (k : List Byte) (v : U128), (m.insert k v).length ≤ m.length + 1 := by
    intro m k v
    induction m with
    | nil => simp [BlMap.insert]
    | cons e rest ih =>
      simp only [BlMap.insert]
      split
      · simp
      · simp only [List.length_cons]; omega
  unfold seedAll
  induction hs generalizing b with
  | nil => simp
  | cons h rest ih =>
    rw [List.foldl_cons]
    have h1 := ih (b.seedIfAbsent h.1 floor)
    have h2 : (b.seedIfAbsent h.1 floor).map.length ≤ b.map.length + 1 := by
      unfold Blocklist.seedIfAbsent
      split
      · omega
      · exact ins _ _ _
    simp only [List.length_cons]
    omega

theorem blCreate_fresh_ok (dir : Path) (order : BlMap → BlMap) (hord : ∀ m, (order m).Perm m) (w : World) (hok : AllOk w) (hfresh : w.fs (blocklistPath dir) = none) (t : U128) (c : List (Option U128))
    (hclk : w.clock = some t :: c) :
    wp (Blocklist.create dir order) w (fun o w' => o = .ok ⟨[], blocklistPath dir, order⟩ ∧ AllOk w' ∧ w'.clock = c) := by
  unfold Blocklist.create pathExists
  simp only
  rw [wp_bind, wp_bind, wp_attempt]
  apply wp_atomicCall_ok _ _ _ hok
  intro o ho
  simp only [id, wp_bind, wp_peek, hfresh, Option.isSome_none, wp_pure, Bool.false_eq_true, if_false]
  refine wp_mono (save_ok ⟨[], blocklistPath dir, order⟩ ⟨by
    constructor
    · exact List.nodup_nil
    · nofun, hord⟩ (by show (0 : Nat) < 2 ^ 32; decide) { w with log := w.log ++ [.file .stat (blocklistPath dir)], oracle := o } ho t c hclk) ?_
  rintro o w' ⟨rfl, h1, h2⟩
  exact ⟨trivial, h1, h2⟩

/-- With working system calls, good keys and no replay state yet, the server starts; the floor of every key is the clock reading. -/
theorem create_fresh_ok (cfg : ServerCfg) (env : StartEnv) (hord : ∀ m, (env.order m).Perm m) (hs : Handlers) (hh : createCryptoHandlers env.dir = .ok hs) (hlen : hs.length < 2 ^ 32)
    (hbind : env.bindOk = true) (w : World) (hok : AllOk w) (hfresh : w.fs (blocklistPath cfg.blDir) = none) (t1 floor t3 : U128) (c : List (Option U128))
    (hclk : w.clock = some t1 :: some floor :: some t3 :: c) :
    wp (Server.create cfg env) w (fun o _ => ∃ bl : Blocklist, o = .ok { cfg, handlers := hs, bl, rl := RateLimiter.new env.mono, throttle := ⟨none, 0⟩ } ∧ bl.Wf ∧ bl.map.length < 2 ^ 32 ∧
      ∀ k, k ∈ hs.map Prod.fst → bl.map.get k = some floor) := by
  unfold Server.create
  rw [wp_bind, wp_ofExcept, hh]
  simp only
  rw [wp_bind]
  refine wp_mono (blCreate_fresh_ok cfg.blDir env.order hord w hok hfresh t1 _ hclk) ?_
  rintro o w1 ⟨rfl, a1, c1⟩
  simp only
  rw [wp_bind, wp_nowNanos_some _ _ _ c1]
  simp only
  obtain ⟨s1, s2, s3, s4⟩ := seedAll_spec ⟨[], blocklistPath cfg.blDir, env.order⟩ hs floor
  have hl := seedAll_length ⟨[], blocklistPath cfg.blDir, env.order⟩ hs floor
  show wp (do
    (seedAll ⟨[], blocklistPath cfg.blDir, env.order⟩ hs floor).save
    if env.bindOk = true then
      pure ({ cfg, handlers := hs, bl := seedAll ⟨[], blocklistPath cfg.blDir, env.order⟩ hs floor, rl := RateLimiter.new env.mono, throttle := ⟨none, 0⟩ } : Server)
    else Act.throw .io) _ _
  generalize hb : seedAll ⟨[], blocklistPath cfg.blDir, env.order⟩ hs floor = b at s1 s2 s3 s4 hl
  have hwf := s3 ⟨by
    constructor
    · exact List.nodup_nil
    · nofun, hord⟩ (createCryptoHandlers_good hh)
  have hl' : b.map.length < 2 ^ 32 := by simp only [List.length_nil] at hl; omega
  rw [wp_bind]
  refine wp_mono (save_ok b hwf hl' { w1 with clock := some t3 :: c } a1 t3 c rfl) ?_
  rintro o w2 ⟨rfl, _, _⟩
  simp only
  rw [if_pos hbind, wp_pure]
  exact ⟨b, rfl, hwf, hl', fun k hk => by rw [s4, if_pos hk]; rfl⟩

/-- A system call that works. -/
theorem call_works {ev : Event} {eff : World → World} {w : World} (hok : AllOk w) (heff : ∀ w : World, (eff w).oracle = w.oracle) {f : Unit → Act β} {Q : Out β → World → Prop}
    (h : ∀ w1 : World, AllOk w1 → w1.fs = w.fs → AllOk (eff w1) → wp (f ()) (eff w1) Q) : wp (atomicCall ev eff >>= f) w Q := by
  rw [wp_bind]
  apply wp_atomicCall_ok _ _ _ hok
  intro o ho
  exact h _ ho rfl (by intro c hc; rw [heff] at hc; exact ho c hc)

theorem removeIgnoring_works {p : Path} {w : World} (hok : AllOk w) {f : Unit → Act β} {Q : Out β → World → Prop} (h : ∀ w1 : World, AllOk w1 → w1.fs p = none → wp (f ()) w1 Q) :
    wp (removeIgnoring p >>= f) w Q := by
  unfold removeIgnoring removeFile
  rw [wp_bind, wp_bind, wp_attempt, wp_bind, wp_peek]
  cases hp : w.fs p with
  | none =>
    simp only [wp_throw, wp_pure]
    exact h w hok hp
  | some x =>
    simp only
    apply wp_atomicCall_ok _ _ _ hok
    intro o ho
    simp only [wp_pure]
    exact h _ ho (if_pos rfl)

theorem wp_setUmask (m : Nat) (w : World) (Q : Out Nat → World → Prop) : wp (setUmask m) w Q = Q (.ok w.umask) { w with umask := m } := rfl

theorem lock_works {p : Path} {w : World} (hok : AllOk w) {f : Unit → Act β} {Q : Out β → World → Prop} (h : ∀ w1 : World, AllOk w1 → wp (f ()) w1 Q) :
    wp (acquireLock p false >>= f) w Q := by
  unfold acquireLock openCreate
  rw [wp_bind]
  apply call_works hok (by
    intro w
    split <;> rfl)
  intro w2 _ _ a2
  generalize (match w2.fs p with
    | some _ => w2
    | none => w2.setEntry p (some ⟨[], w2.newMode, false, .creator⟩)) = w3 at a2 ⊢
  apply call_works a2 (fun _ => rfl)
  intro w4 a4 _ _
  exact h w4 a4

/-- With working system calls the socket of the commander is made. -/
theorem createListener_ok (c : Commander) (hp : parent c.socketPath ≠ none) (w : World) (hok : AllOk w) : wp (c.createListener false true) w (fun o w' => o = .ok () ∧ ∃ f, w'.fs c.socketPath = some f) := by
  unfold Commander.createListener
  cases hpar : parent c.socketPath with
  | none => exact absurd hpar hp
  | some dir =>
    simp only
    apply call_works hok (fun _ => rfl)
    intro w1 a1 _ _
    apply lock_works (show AllOk (id w1) from a1)
    intro w4 a4
    apply removeIgnoring_works a4
    intro w5 a5 n5
    rw [wp_bind]
    rw [wp_setUmask]
    simp only
    rw [wp_bind, wp_attempt]
    unfold bindUnix
    rw [wp_bind, wp_peek]
    simp only [n5]
    apply wp_atomicCall_ok _ _ _ (show AllOk { w5 with umask := 0o077 } from a5)
    intro o6 h6
    simp only
    rw [wp_bind]
    rw [wp_setUmask]
    simp only
    rw [wp_bind, wp_ofExcept]
    simp only
    rw [wp_bind]
    refine wp_mono (chmod_ok _ _ _ h6 ⟨_, if_pos rfl⟩) ?_
    rintro o w7 ⟨rfl, a7, _, f, hf⟩
    simp only
    unfold changeOwnership chown
    rw [if_neg (by decide), wp_bind, wp_peek]
    simp only [hf]
    apply wp_atomicCall_ok _ _ _ a7
    intro o _
    exact ⟨rfl, _, if_pos rfl⟩

/-! ## The keys -/

theorem keyText_create {key id : List Byte} (hk : key.length = 32) (hi : id.length = 8) {text : List Char} (h : KeyText key id text) :
    CryptoHandler.create text = .ok ⟨key, id⟩ ∧ CryptoHandler.create (trim text) = .ok ⟨key, id⟩ := by
  obtain ⟨printed, before, after, hg, hb, ha, rfl⟩ := h
  cases hg
  have h1 : trim (before ++ b64Encode (id ++ key) ++ after) = b64Encode (id ++ key) := trim_ws _ _ _ hb (b64Encode_no_ws _) ha
  have h2 : trim (b64Encode (id ++ key)) = b64Encode (id ++ key) := by
    have := trim_ws [] (b64Encode (id ++ key)) [] (fun _ h => nomatch h) (b64Encode_no_ws _) (fun _ h => nomatch h)
    simpa using this
  refine ⟨(create_ok_iff _ _).2 ⟨h1, hi, hk⟩, (create_ok_iff _ _).2 ⟨?_, hi, hk⟩⟩
  rw [h1, h2]

theorem keyDir_handlers {key id : List Byte} (hk : key.length = 32) (hi : id.length = 8) {es : List DirEntry} (h : KeyDir key id es) :
    ∃ hs, createCryptoHandlers (some es) = .ok hs ∧ hs.length < 2 ^ 32 ∧ hs.get id = some ⟨key, id⟩ := by
  classical
  have hks : ∀ l : List DirEntry, (∀ f ∈ l, ∃ k, keyOf f = some k) → ∃ ks : List CryptoHandler, l.map keyOf = ks.map some := by
    intro l
    induction l with
    | nil => exact fun _ => ⟨[], rfl⟩
    | cons f l ih =>
      intro hl
      obtain ⟨k, hk⟩ := hl f (List.mem_cons_self ..)
      obtain ⟨ks, hks⟩ := ih (fun f hf => hl f (List.mem_cons_of_mem _ hf))
      exact ⟨k :: ks, by rw [List.map_cons, hk, hks]; rfl⟩
  obtain ⟨ks, hks⟩ := hks (es.filter IsKeyFile) (fun f hf => by
    rw [List.mem_filter] at hf
    exact h.good f hf.1 (by simpa using hf.2))
  obtain ⟨f, hf, hkf, text, hc, ht⟩ := h.present
  have hf' : f ∈ es.filter IsKeyFile := List.mem_filter.2 ⟨hf, by simpa using hkf⟩
  have hkeyf : keyOf f = some ⟨key, id⟩ := by
    unfold keyOf
    simp only [hc, (keyText_create hk hi ht).1]
  have hmem : (⟨key, id⟩ : CryptoHandler) ∈ ks := by
    have : some (⟨key, id⟩ : CryptoHandler) ∈ ks.map some := by
      rw [← hks, ← hkeyf]
      exact List.mem_map_of_mem hf'
    simpa using this
  have hnd : (ks.map (·.id)).Nodup := by
    have hp : (es.filter IsKeyFile).Pairwise (fun f f' => ∀ k k', keyOf f = some k → keyOf f' = some k' → k.id ≠ k'.id) := by
      have := h.different.filter (fun f => decide (IsKeyFile f))
      refine List.Pairwise.imp_of_mem ?_ this
      intro a b ha hb hab
      rw [List.mem_filter] at ha hb
      exact hab (by simpa using ha.2) (by simpa using hb.2)
    generalize es.filter IsKeyFile = l at hp hks
    clear hmem hf'
    induction l generalizing ks with
    | nil =>
      cases ks with
      | nil => exact List.nodup_nil
      | cons _ _ => cases hks
    | cons f l ih =>
      cases ks with
      | nil => cases hks
      | cons k ks =>
        simp only [List.map_cons, List.cons.injEq] at hks
        rw [List.pairwise_cons] at hp
        rw [List.map_cons, List.nodup_cons]
        refine ⟨?_, ih ks hp.2 hks.2⟩
        intro hm
        obtain ⟨k', hk', he⟩ := List.mem_map.1 hm
        have : some k' ∈ l.map keyOf := by rw [hks.2]; exact List.mem_map_of_mem hk'
        obtain ⟨f', hf', hkf'⟩ := List.mem_map.1 this
        exact hp.1 f' hf' k k' hks.1 hkf' he.symm
  refine ⟨ks.map (fun k => (k.id, k)), (C24_keys_loaded_iff _ _).2 ⟨es, ks, rfl, hks, List.ne_nil_of_mem hmem, hnd, rfl⟩, ?_, ?_⟩
  · have h1 : ks.length = (es.filter IsKeyFile).length := by
      have := congrArg List.length hks
      simpa using this.symm
    have h2 := List.length_filter_le (fun f => decide (IsKeyFile f)) es
    have := h.few
    simp only [List.length_map]
    omega
  · clear hks
    induction ks with
    | nil => cases hmem
    | cons k ks ih =>
      rw [List.map_cons, List.nodup_cons] at hnd
      show (if k.id = id then some k else _) = _
      rcases List.mem_cons.1 hmem with rfl | hm
      · rw [if_pos rfl]
      · rw [if_neg]
        · exact ih hm hnd.2
        · intro e
          exact hnd.1 (e ▸ List.mem_map_of_mem (f := (·.id)) hm)

/-! ## The limits -/

theorem new_check (mono : Nat) (ip : Ip) {m g : Nat} (hm : 1 ≤ m) (hg : 1 ≤ g) (rd : Readings) : ∃ rl, (RateLimiter.new mono).check ip m g rd = (.ok (), rl) := by
  have hb : ∀ (st m : Nat), 1 ≤ m → ∀ a b, ∃ s, (Slot.mk st 0).bump m a b = (true, s) := by
    intro st m hm a b
    unfold Slot.bump
    split
    · exact ⟨_, rfl⟩
    · rw [if_neg (by simp only; omega)]
      exact ⟨_, rfl⟩
  obtain ⟨s1, h1⟩ := hb rd.insert m hm rd.ipElapsed rd.ipReset
  obtain ⟨s2, h2⟩ := hb mono g hg rd.globalElapsed rd.globalReset
  have e : lookupIp (dropOld (RateLimiter.new mono).perIp rd) ip = none := rfl
  unfold RateLimiter.check
  simp only [e, Option.getD_none, h1, Bool.not_true, Bool.false_eq_true, if_false]
  have e2 : (RateLimiter.new mono).global.bump g rd.globalElapsed rd.globalReset = (true, s2) := h2
  rw [e2]
  exact ⟨_, rfl⟩

/-! ## The programs -/

theorem addresses_normal {x : Toml} {ips : List Ip} (h : Spec.IsAddresses x ips) : loadIps ips = ips := by
  induction h with
  | nil => rfl
  | cons s ip l ips hp hl ih =>
    show normalizeIp (normalizeIp ip) :: ips.map normalizeIp = _
    rw [(C06_normalize_idempotent ip).1]
    exact congrArg _ ih

theorem socketPath_parent (env : PathEnv) (dir : Path) : parent (commanderSocketPath env dir) ≠ none := by
  have hl : 13 ≤ (commanderSocketPath env dir).length := by
    unfold commanderSocketPath pathPush
    rw [if_neg (by decide)]
    split <;> simp
  unfold parent
  rw [if_neg]
  · exact nofun
  · rintro (h | h) <;> rw [h] at hl <;> exact absurd hl (by decide)

/-- **C97a.** The server, set up like this, starts: with the settings of its config.toml, a fresh limit, and every key at the clock reading. -/
theorem C97_server_starts {e : ServerEnv} {args : List (List Char)} {t : Table} {c : ConfigServer} {key id : List Byte} {floor : U128} {w : World} (hk : key.length = 32) (hi : id.length = 8)
    (hd : DistinctKeys t) (h : ServerReady e args t c key id floor w) :
    ∃ s w', serverMain e args w = (.ok (.ok s), w') ∧ s.cfg = c.running e.paths ∧ s.rl = RateLimiter.new e.mono ∧ s.handlers.get id = some ⟨key, id⟩ ∧ s.bl.Wf ∧ s.bl.map.length < 2 ^ 32 ∧
      s.bl.map.get id = some floor := by
  obtain ⟨g, p, hs, hp, ht⟩ := h.line
  have hparse := (C96_server_reads args p).2 ⟨g, hs, hp⟩
  have hc := (C66_server_settings t hd c).2 h.settings
  obtain ⟨es, hes, hkd⟩ := h.keys
  obtain ⟨hs, hh, hlen, hget⟩ := keyDir_handlers hk hi hkd
  obtain ⟨t1, t3, cl, hclk⟩ := h.clock
  have hstart := create_fresh_ok (c.running e.paths) ⟨e.dir (c.keyDir e.paths), e.order, e.socketOk c.address, e.mono⟩ h.order hs (by rw [hes]; exact hh) hlen h.socket w h.disk h.fresh t1 floor t3 cl hclk
  have hrun : startServer e p w = Server.create (c.running e.paths) ⟨e.dir (c.keyDir e.paths), e.order, e.socketOk c.address, e.mono⟩ w := by
    unfold startServer readTable
    rw [ht]
    simp only [hc]
    rfl
  unfold wp at hstart
  obtain ⟨bl, ho, hwf, hl, hfl⟩ := hstart
  refine ⟨{ cfg := c.running e.paths, handlers := hs, bl, rl := RateLimiter.new e.mono, throttle := ⟨none, 0⟩ }, (startServer e p w).2, ?_, rfl, rfl, hget, hwf, hl, hfl id ?_⟩
  · unfold serverMain
    rw [hparse]
    simp only [hrun, ho]
  · exact List.mem_map.2 ⟨_, handlers_mem_of_get hget, rfl⟩

/-- **C97b.** The commander, set up like this, starts: with the settings of its config.toml and the commands of its commands.toml, at a socket that exists. -/
theorem C97_commander_starts {e : CmdrEnv} {hash : List Char → U64} {args : List (List Char)} {t : Table} {c : ConfigCommander} {entries : Table} {w : World} (hd : DistinctKeys t)
    (h : CommanderReady e hash args t c entries w) :
    ∃ k w' r, commanderMain e hash args w = (.ok (.ok k), w') ∧ k = Commander.create c r hash e.paths ∧ (∃ f, w'.fs k.socketPath = some f) ∧ (r.map Prod.fst).Nodup ∧
      (∀ x ∈ r, ∀ y ∈ r, hash x.1 = hash y.1 → x.1 = y.1) ∧ (∀ name x cmd n, (name, x) ∈ entries → IsCommand x cmd n → ∃ v, (name, v) ∈ r ∧ Spec.commandText v = cmd) ∧
      ∀ hsh spec, k.cmds.get hsh = some spec → ∃ name x, (name, x) ∈ entries ∧ IsCommand x spec.cmd spec.timeout := by
  obtain ⟨g, p, q, cm, hs, hp, hq, ht, hcm, hdc, hfile⟩ := h.line
  have hparse := (C96_commander_reads args p q).2 ⟨g, hs, hp, hq⟩
  have hc := (C66_commander_settings t hd c).2 h.settings
  obtain ⟨r, hr⟩ := (C69_accepted_iff cm hdc (fun en he => by
    rw [hfile.1] at he
    cases he
    exact h.distinct.2)).2 ⟨entries, hfile⟩
  obtain ⟨x, h1, h2⟩ := (commandsDeserialize_ok hdc).1 hr
  rw [hfile.1] at h1
  cases h1
  obtain ⟨hkeys, ha, hb⟩ := mapM_entries h2
  have hsock := createListener_ok (Commander.create c r hash e.paths) (socketPath_parent _ _) w h.disk
  have hrun : startCommander e hash p q w = (do
      (Commander.create c r hash e.paths).createListener e.held e.names
      pure (Commander.create c r hash e.paths)) w := by
    unfold startCommander loadCommander readTable
    rw [ht, hcm]
    simp only [hc, hr]
    rfl
  have hst : wp (do
      (Commander.create c r hash e.paths).createListener e.held e.names
      pure (Commander.create c r hash e.paths)) w (fun o w' => o = .ok (Commander.create c r hash e.paths) ∧ ∃ f, w'.fs (Commander.create c r hash e.paths).socketPath = some f) := by
    rw [wp_bind, h.free, h.names]
    refine wp_mono hsock ?_
    rintro o w' ⟨rfl, hf⟩
    exact ⟨rfl, hf⟩
  unfold wp at hst
  rw [← hrun] at hst
  refine ⟨_, (startCommander e hash p q w).2, r, ?_, rfl, hst.2, by rw [hkeys]; exact h.distinct.1, ?_, ?_, ?_⟩
  · unfold commanderMain
    rw [hparse]
    simp only [hst.1]
  · intro a ha' b hb' hab
    obtain ⟨x1, m1, _⟩ := ha a.1 a.2 ha'
    obtain ⟨x2, m2, _⟩ := ha b.1 b.2 hb'
    exact h.hashes _ m1 _ m2 hab
  · intro name x cmd n hx hcmd
    obtain ⟨v, hm, hv⟩ := hb name x hx
    obtain ⟨v', hv', rfl, rfl⟩ := (asCommand_iff (fun l e => h.distinct.2 name l (e ▸ hx))).2 hcmd
    rw [hv] at hv'
    cases hv'
    exact ⟨v, hm, rfl⟩
  · intro hsh spec hg
    obtain ⟨name, x, hx, -, hcmd⟩ := (C69_commands cm entries hdc hfile.1 h.distinct.1 h.distinct.2 r hr c hash e.paths).1 hsh spec hg
    exact ⟨name, x, hx, hcmd⟩

theorem clientReady_canSend {dir : Path} {e : ClientEnv} {args : List (List Char)} {a : SendArgs} {key id : List Byte} {claimed : Option Ip} {dsts : List SockAddr} {c0 : U128} {w : World}
    (hk : key.length = 32) (hi : id.length = 8) (h : ClientReady dir e args a key id claimed dsts c0 w) :
    CanSend dir a.cmd { keyText := e.keyFile a.keyFile, resolve := e.resolve, rnd := e.rnd } w ⟨key, id⟩ claimed dsts c0 ∧ claimed ≠ some (.v6 0) := by
  have hcl := h.claims
  constructor
  · refine ⟨⟨h.disk, h.clock.1, h.clock.2⟩, h.host, ?_, ?_, h.random, h.counter, h.room⟩
    · cases ha : a.cmd.ip with
      | none => simp only [ha] at hcl; rw [hcl]; rfl
      | some x =>
        simp only [ha] at hcl
        obtain ⟨ip, hp, _, rfl⟩ := hcl
        unfold parseIpOption
        simp only [hp]
    · obtain ⟨text, ht, hkt⟩ := h.key
      exact ⟨text, ht, (keyText_create hk hi hkt).2⟩
  · cases ha : a.cmd.ip with
    | none => simp only [ha] at hcl; rw [hcl]; exact nofun
    | some x =>
      simp only [ha] at hcl
      obtain ⟨ip, _, hne, rfl⟩ := hcl
      intro he
      exact hne (Option.some.inj he)

/-- **C97.** A server, a commander and a client, set up with a key that `ruroco-client gen` printed, one config.toml and a commands.toml: all three programs do what they are started for; the server
sends to the socket the commander made; and the datagram for each address of the host, received first by that server, makes it hand over exactly one message, on which that commander runs exactly the
command the commands.toml gives for the name on the client's command line, once, for the address claimed or else the sender's; the same datagram never again. The conditions: the server has this
address in its `ips`; a claimed address is the sender's unless `--permissive`; the client's counter is not below the server's clock at its start, and not more than the tolerated skew above its clock
now; the address may be used by the commander. -/
theorem C97_set_up_works (A : Aead) (hA : A.Correct) (hash : List Char → U64) (t : Table) (hd : DistinctKeys t) (key id : List Byte) (hk : key.length = 32) (hi : id.length = 8)
    (es : ServerEnv) (sargs : List (List Char)) (cs : ConfigServer) (floor : U128) (ws : World) (hs : ServerReady es sargs t cs key id floor ws)
    (ek : CmdrEnv) (kargs : List (List Char)) (ck : ConfigCommander) (entries : Table) (wk : World) (hcm : CommanderReady ek hash kargs t ck entries wk) (hpaths : ek.paths = es.paths)
    (ec : ClientEnv) (cargs : List (List Char)) (dir : Path) (a : SendArgs) (claimed : Option Ip) (dsts : List SockAddr) (c0 : U128) (wc : World)
    (hc : ClientReady dir ec cargs a key id claimed dsts c0 wc) :
    ∃ s ws1 k wk1 wc1 sent, serverMain es sargs ws = (.ok (.ok s), ws1) ∧ commanderMain ek hash kargs wk = (.ok (.ok k), wk1) ∧ clientMain A hash dir ec cargs wc = (.ok (.ok ()), wc1) ∧
      cs.socketPath es.paths = k.socketPath ∧ (∃ f, wk1.fs k.socketPath = some f) ∧
      datagrams wc1.log = datagrams wc.log ++ sent ∧ sent.length = dsts.length ∧
      ∀ (j : Nat) (d : SockAddr), dsts[j]? = some d → ∃ ctr dg, sent[j]? = some (d.ip, d.port, ctr, dg) ∧ ctr.toNat = c0.toNat + 1 + j ∧
        ∀ (src : Ip) (rd : Readings) (now t2 : U128) (cl : List (Option U128)) (w : World), AllOk w → w.clock = some now :: some t2 :: cl →
          (∃ ip ∈ cs.ips, SameHost d.ip ip) → floor.toNat ≤ c0.toNat → c0.toNat + 1 + j ≤ now.toNat + cs.skewSeconds * 1000000000 →
          (a.cmd.permissive = false → ∀ x, claimed = some x → SameHost x src) →
          ∃ s' msg w', s.iteration A dg src rd w = (.ok (s', .ok ()), w') ∧ forwards w'.log = forwards w.log ++ [(w.cur, ctr, msg)] ∧
            (∀ (x : Toml) (cmd : List Char) (n : Nat) (ip : Ip) (pre : Path) (cenv : ChildEnv) (w2 : World), (a.cmd.command, x) ∈ entries → IsCommand x cmd n →
              SameHost ip (claimed.getD src) → ¬ Spec.IsMappedNotation ip → ck.allowNonRoutable = true ∨ ¬ NonRoutable ip → CommandsEnd entries cenv → Works 2 w2 →
              ∃ l, (k.serve pre [.stream false msg cenv] w2).2.log = w2.log ++ l ∧ spawns l = [(cmd, ip)]) ∧
            (∀ (src2 : Ip) (rd2 : Readings) (w2 : World), forwards (s'.iteration A dg src2 rd2 w2).2.log = forwards w2.log) := by
  obtain ⟨s, ws1, hsm, hcfg, hrl, hget, hwf, hlen, hfloor⟩ := C97_server_starts hk hi hd hs
  obtain ⟨k, wk1, r, hkm, hkeq, hsock, hnd, hinj, hcmds, hback⟩ := C97_commander_starts hd hcm
  obtain ⟨hcan, hne⟩ := clientReady_canSend hk hi hc
  rcases hrun : runSend A hash dir false a.cmd { keyText := ec.keyFile a.keyFile, resolve := ec.resolve, rnd := ec.rnd } wc with ⟨oc, wc1⟩
  obtain ⟨ho, sent, hsent, hslen, hall⟩ := C37_end_to_end A hA hash dir a.cmd _ wc wc1 oc ⟨key, id⟩ claimed dsts c0 hcan hne hrun
  have hclient : clientMain A hash dir ec cargs wc = (.ok (.ok ()), wc1) := by
    unfold clientMain
    rw [(C96_client_understands cargs (.send a)).2 hc.line]
    simp only [runClient, hc.free]
    rw [hrun, ho]
  refine ⟨s, ws1, k, wk1, _, sent, hsm, hkm, hclient, ?_, hsock, hsent, hslen, ?_⟩
  · rw [hkeq, hpaths]
    exact C68_same_socket t hd cs ck ((C66_server_settings t hd cs).2 hs.settings) ((C66_commander_settings t hd ck).2 hcm.settings) r hash es.paths
  intro j d hj
  obtain ⟨ctr, dg, h1, h2, hserver⟩ := hall j d hj
  refine ⟨ctr, dg, h1, h2, ?_⟩
  intro src rd now t2 cl w hok hclk hip hfl hskew hsrc
  obtain ⟨rl, hrate⟩ := new_check es.mono (normalizeIp src) hs.limits.1 hs.limits.2 rd
  have hips : loadIps cs.ips = cs.ips := by
    obtain ⟨x, _, hx⟩ := hs.settings.1
    exact addresses_normal hx
  have hsk : (BitVec.ofNat 64 cs.skewSeconds).toNat = cs.skewSeconds := by
    rw [BitVec.toNat_ofNat, Nat.mod_eq_of_lt]
    obtain ⟨-, -, -, -, -, -, -, h8⟩ := hs.settings
    rcases h8 with ⟨_, h⟩ | ⟨x, _, h⟩
    · rw [h]; decide
    · cases h; assumption
  obtain ⟨s', msg, hit, hfw, hcmdr, hnot⟩ := hserver s cs.ips src rd rl now t2 cl w _ _ hwf hlen hok hclk
    { key := hget
      ips := by rw [hcfg, hips]; rfl
      dst := hip
      counter := ⟨floor, hfloor, by omega⟩
      clock := by
        rw [hcfg]
        show _ ≤ now.toNat + (BitVec.ofNat 64 cs.skewSeconds).toNat * 1000000000
        rw [hsk]
        omega
      src := fun hst => hsrc (by simpa using hst) }
    (by
      unfold Spec.RateOk
      rw [hrl, hcfg]
      exact hrate) rfl
  refine ⟨s', msg, _, Prod.ext hit rfl, hfw, ?_, hnot⟩
  intro x cmd n ip pre cenv w2 hx hcmd hsame hmap hallow hends hworks
  obtain ⟨v, hv, rfl⟩ := hcmds _ x cmd n hx hcmd
  exact hcmdr k r v ip pre cenv w2 hsame hmap ⟨by rw [hkeq]; rfl, hv, hnd, hinj, by rw [hkeq]; exact hallow⟩ (fun h spec hg => by
    obtain ⟨name, x, hx, hc⟩ := hback h spec hg
    exact hends name x _ _ hx hc) hworks

/-! ## A concrete set-up -/

/-- config.toml -/
def exReadyConfig : Table := [("ips".toList, .arr [.str "10.0.0.2".toList, .str "::1".toList]), ("config_dir".toList, .str "/etc/ruroco".toList), ("socket_dir".toList, .str "/run/ruroco".toList)]

def exReadyEntries : Table := [("open".toList, .str "ufw allow".toList), ("close!".toList, .tbl [("cmd".toList, .str "ufw deny".toList), ("timeout_sec".toList, .int 5)])]

def exReadyTables (p : Path) : Option Table :=
  if p = "/etc/ruroco/config.toml".toList then some exReadyConfig else if p = "/etc/ruroco/commands.toml".toList then some [("commands".toList, .tbl exReadyEntries)] else none

theorem exReadyTables_config : exReadyTables "/etc/ruroco/config.toml".toList = some exReadyConfig := if_pos rfl

theorem exReadyTables_commands : exReadyTables "/etc/ruroco/commands.toml".toList = some [("commands".toList, .tbl exReadyEntries)] := by
  unfold exReadyTables
  rw [if_neg (by decide), if_pos rfl]

def exReadyPaths : PathEnv := ⟨some "/".toList, fun p => some p⟩

def exReadyServerConfig : ConfigServer := ⟨[.v4 0x0a000002, .v6 1], none, "/etc/ruroco".toList, none, some "/run/ruroco".toList, 2, 100, 3600⟩

def exReadyServer : ServerEnv where
  table := exReadyTables
  paths := exReadyPaths
  dir := fun p => if p = "/etc/ruroco".toList then exDir else none
  order := id
  socket := ⟨some "7".toList, some "1".toList, none⟩
  pid := 7
  listens := fun _ => true
  mono := 0

def exReadyWorld (now : U128) : World := { exEmpty with clock := List.replicate 9 (some now) }

theorem exKeyText_is : KeyText exKey.key exKey.id ('\n' :: exKeyText) ∧ KeyText exKey.key exKey.id exKeyText := by
  refine ⟨⟨exKeyText, "\n".toList, [], by decide +kernel, by decide, nofun, by simp⟩, ⟨exKeyText, [], [], by decide +kernel, nofun, nofun, by simp⟩⟩

theorem exReady_server : ServerReady exReadyServer ["--config".toList, "/etc/ruroco/config.toml".toList] exReadyConfig exReadyServerConfig exKey.key exKey.id 5000 (exReadyWorld 5000) where
  line := by
    obtain ⟨g, h1, h2⟩ := (C96_server_reads ["--config".toList, "/etc/ruroco/config.toml".toList] "/etc/ruroco/config.toml".toList).1 (by decide +kernel)
    exact ⟨g, _, h1, h2, exReadyTables_config⟩
  settings := (C66_server_settings _ (by unfold DistinctKeys; decide +kernel) _).1 (by decide +kernel)
  keys := by
    refine ⟨[⟨"a.key".toList, true, some ('\n' :: exKeyText)⟩, ⟨"readme".toList, true, none⟩], rfl, ?_, ?_, ?_, by decide⟩
    · exact ⟨_, List.mem_cons_self .., ⟨rfl, "a".toList, by decide, by decide⟩, _, rfl, exKeyText_is.1⟩
    · intro f hf hk
      rcases List.mem_cons.1 hf with rfl | hf
      · exact ⟨exKey, by decide +kernel⟩
      · rw [List.mem_singleton.1 hf] at hk
        exact absurd ((keyFile_iff _).2 hk) (by decide +kernel)
    · refine List.pairwise_cons.2 ⟨?_, List.pairwise_singleton ..⟩
      intro f hf _ hk
      rw [List.mem_singleton.1 hf] at hk
      exact absurd ((keyFile_iff _).2 hk) (by decide +kernel)
  limits := by decide
  socket := by decide +kernel
  order := fun _ => .refl _
  disk := nofun
  fresh := rfl
  clock := ⟨_, _, _, rfl⟩

theorem exReady_commander : CommanderReady ⟨exReadyTables, exReadyPaths, false, true⟩ exHash [] exReadyConfig ⟨"/etc/ruroco".toList, some "/run/ruroco".toList, "ruroco".toList, "ruroco".toList, false⟩
    exReadyEntries (exReadyWorld 5000) where
  line := by
    obtain ⟨g, h1, h2, h3⟩ := (C96_commander_reads [] "/etc/ruroco/config.toml".toList "/etc/ruroco/commands.toml".toList).1 (by decide +kernel)
    refine ⟨g, _, _, [("commands".toList, .tbl exReadyEntries)], h1, h2, h3, exReadyTables_config, exReadyTables_commands, List.nodup_cons.2 ⟨nofun, List.nodup_nil⟩, rfl, ?_⟩
    intro name x hm
    rcases List.mem_cons.1 hm with h | hm
    · cases h; exact ⟨_, _, .plain _⟩
    · cases List.mem_singleton.1 hm
      exact ⟨_, _, .detailed _ "ufw deny".toList 5 ⟨_, rfl, .str _⟩ (Or.inr ⟨_, rfl, .int 5 (by decide)⟩)⟩
  settings := (C66_commander_settings _ (by unfold DistinctKeys; decide +kernel) _).1 (by decide +kernel)
  distinct := by
    refine ⟨by unfold DistinctKeys; decide +kernel, ?_⟩
    intro name l hm
    rcases List.mem_cons.1 hm with h | hm
    · cases h
    · cases List.mem_singleton.1 hm
      unfold DistinctKeys
      decide +kernel
  hashes := by
    intro x hx y hy
    rcases List.mem_cons.1 hx with rfl | hx <;> rcases List.mem_cons.1 hy with rfl | hy
    · exact fun _ => rfl
    · rw [List.mem_singleton.1 hy]; decide +kernel
    · rw [List.mem_singleton.1 hx]; decide +kernel
    · rw [List.mem_singleton.1 hx, List.mem_singleton.1 hy]; exact fun _ => rfl
  free := rfl
  names := rfl
  disk := nofun

def exReadyArgs : SendArgs := ⟨{ address := "host".toList, command := "open".toList, permissive := true, ip := some "8.8.8.8".toList, ipv4 := false, ipv6 := false, delayMs := 50 }, "k".toList⟩

def exReadyLine : List (List Char) :=
  ["send".toList, "-a".toList, "host".toList, "-k".toList, "k".toList, "-c".toList, "open".toList, "-ei".toList, "8.8.8.8".toList]

def exReadyClient : ClientEnv where
  held := false
  keyFile := fun p => if p = "k".toList then some exKeyText else none
  resolve := fun _ => some [⟨.v4 0x0a000002, 80⟩, ⟨.v6 1, 80⟩]
  rnd := fun i => some (List.replicate 12 (BitVec.ofNat 8 i))
  dirs := exDirs
  update := exUpdEnv
  wizard := exWizEnv

theorem exReady_client : ClientReady "/c".toList exReadyClient exReadyLine exReadyArgs exKey.key exKey.id (some (.v4 0x08080808)) [⟨.v4 0x0a000002, 80⟩, ⟨.v6 1, 80⟩] 5000 (exReadyWorld 5000) where
  line := (C96_client_understands _ _).1 (by
    have h : (match parseClient exReadyLine with
      | .ok (.send a) => some (a.cmd, a.keyFile)
      | _ => none) = some (exReadyArgs.cmd, exReadyArgs.keyFile) := by decide +kernel
    revert h
    cases parseClient exReadyLine with
    | error e => exact nofun
    | ok c =>
      cases c with
      | send a =>
        intro h
        cases a
        cases h
        rfl
      | _ => exact nofun)
  key := ⟨exKeyText, rfl, exKeyText_is.2⟩
  host := ⟨"host:80".toList, by decide +kernel, by decide +kernel⟩
  claims := ⟨.v4 0x08080808, by decide +kernel, nofun, rfl⟩
  free := rfl
  random := fun i => ⟨_, rfl, by simp⟩
  disk := nofun
  clock := ⟨fun t ht => by rw [List.eq_of_mem_replicate (show t ∈ List.replicate 9 (some (5000 : U128)) from ht)]; exact nofun, by decide⟩
  counter := Or.inr ⟨rfl, rfl⟩
  room := by decide +kernel

/-- What C97 says of it: the three programs do their work, and the first of the two datagrams leads to the command, for the claimed address. -/
example : ∃ s ws1 k wk1 wc1 ctr dg rest, serverMain exReadyServer ["--config".toList, "/etc/ruroco/config.toml".toList] (exReadyWorld 5000) = (.ok (.ok s), ws1) ∧
    commanderMain ⟨exReadyTables, exReadyPaths, false, true⟩ exHash [] (exReadyWorld 5000) = (.ok (.ok k), wk1) ∧
    clientMain toyAead exHash "/c".toList exReadyClient exReadyLine (exReadyWorld 5000) = (.ok (.ok ()), wc1) ∧
    datagrams wc1.log = (.v4 0x0a000002, 80, ctr, dg) :: rest ∧
    ∃ s' msg w', s.iteration toyAead dg (.v4 0x0a000001) exReadings (exReadyWorld 9000) = (.ok (s', .ok ()), w') ∧ forwards w'.log = [([], ctr, msg)] ∧
      ∃ l, (k.serve [] [.stream false msg exEnv] (exCmdrWorld [])).2.log = l ∧ spawns l = [("ufw allow".toList, .v4 0x08080808)] := by
  obtain ⟨s, ws1, k, wk1, wc1, sent, h1, h2, h3, -, -, h4, -, h5⟩ := C97_set_up_works toyAead toyAead_correct exHash exReadyConfig (by unfold DistinctKeys; decide +kernel) exKey.key exKey.id rfl rfl
    _ _ _ _ _ exReady_server _ _ _ _ _ exReady_commander rfl _ _ _ _ _ _ _ _ exReady_client
  obtain ⟨ctr, dg, g1, g2, h6⟩ := h5 0 _ rfl
  obtain ⟨s', msg, w', h7, h8, h9, -⟩ := h6 (.v4 0x0a000001) exReadings 9000 9000 _ (exReadyWorld 9000) nofun rfl ⟨.v4 0x0a000002, List.mem_cons_self .., rfl⟩ (Nat.le_refl _)
    (by decide +kernel) (fun h => nomatch h)
  obtain ⟨l, h10, h11⟩ := h9 (.str "ufw allow".toList) "ufw allow".toList 30 (.v4 0x08080808) [] exEnv (exCmdrWorld []) (List.mem_cons_self ..) (.plain _) rfl nofun
    (Or.inr (by rw [← C27_refused_iff_in_block]; decide +kernel)) (by
      intro name x cmd n hm hc
      rcases List.mem_cons.1 hm with h | hm
      · cases h; cases hc; decide +kernel
      · cases List.mem_singleton.1 hm
        cases hc with
        | detailed _ _ _ _ ht =>
          rcases ht with ⟨ht, _⟩ | ⟨x, hx, ht⟩
          · cases ht
          · cases hx; cases ht; decide +kernel)
    ⟨nofun, by
      intro t ht
      obtain ⟨n, _, rfl⟩ := List.mem_map.1 (show t ∈ (List.range 20).map (fun n => some (BitVec.ofNat 128 n)) from ht)
      exact nofun, by decide⟩
  refine ⟨s, ws1, k, wk1, wc1, ctr, dg, sent.tail, h1, h2, h3, ?_, s', msg, w', h7, h8, l, h10, h11⟩
  rw [h4]
  cases sent with
  | nil => cases g1
  | cons x rest => cases g1; rfl

end Ruroco
