import Verif.Spec.Started
import Verif.Props.Setup
import Verif.Props.Socket
import Verif.Props.Listener
import Verif.Props.Gate

/-! # C108: a service that runs, runs as it was told -/

namespace Ruroco

open Spec (ServerTold ServerWorksWith CommanderTold CommanderWorksWith ListensOn TomlFiles LoadsKeys ServerSettings CommanderSettings CommandsFile DistinctKeys IsCommand Says PathMeans)

theorem act_bind_ok {x : Act α} {f : α → Act β} {w w' : World} {b : β} (h : (x >>= f) w = (.ok b, w')) : ∃ a w1, x w = (.ok a, w1) ∧ f a w1 = (.ok b, w') := by
  change Act.bind x f w = _ at h
  unfold Act.bind at h
  rcases hx : x w with ⟨o, w1⟩
  rw [hx] at h
  cases o with
  | ok a => exact ⟨a, w1, rfl, h⟩
  | err e => cases h
  | crash => cases h

theorem ofExcept_ok {x : Except Err α} {w w' : World} {a : α} (h : Act.ofExcept x w = (.ok a, w')) : x = .ok a ∧ w' = w := by
  cases x with
  | ok b => cases h; exact ⟨rfl, rfl⟩
  | error e => cases h

/-- The socket chosen is the one specified. -/
theorem listensOn_iff (env : SocketEnv) (pid : Nat) (config : Option (List Char)) (l : Listen) : createServerUdpSocket env pid none config = .ok l ↔ ListensOn env pid config l := by
  obtain ⟨lp, lf, la⟩ := env
  have conf : ∀ (h : (⟨lp, lf, none⟩ : SocketEnv).listenPid = none ∨ (⟨lp, lf, none⟩ : SocketEnv).listenFds = none),
      createServerUdpSocket.configured config = .ok l ↔ ListensOn ⟨lp, lf, none⟩ pid config l := by
    intro hs
    cases hc : config with
    | none =>
      constructor
      · intro h; cases h; exact .default rfl hs rfl
      · intro h
        cases h with
        | environment a h => cases h
        | passed h hp hn => rcases hs with h | h <;> simp_all
        | config a h hs hc => cases hc
        | default => rfl
    | some a =>
      constructor
      · intro h; cases h; exact .config a rfl hs rfl
      · intro h
        cases h with
        | environment a h => cases h
        | passed h hp hn => rcases hs with h | h <;> simp_all
        | config a h hs hc => cases hc; rfl
        | default _ _ hc => cases hc
  cases la with
  | some a =>
    have : createServerUdpSocket ⟨lp, lf, some a⟩ pid none config = .ok (.bind a) := by cases lp <;> cases lf <;> rfl
    rw [this]
    constructor
    · intro h; cases h; exact .environment a rfl
    · intro h
      cases h with
      | environment b h => cases h; rfl
      | passed h => cases h
      | config _ h => cases h
      | default h => cases h
  | none =>
    cases lp with
    | none => exact conf (Or.inl rfl)
    | some p =>
      cases lf with
      | none => exact conf (Or.inr rfl)
      | some f =>
        have hval : createServerUdpSocket ⟨some p, some f, none⟩ pid none config = if p = (toString pid).toList ∧ f = ['1'] then .ok (.fd 3) else .error .config :=
          (C23_socket_priority_partial ⟨some p, some f, none⟩ pid none config).2.2.1 p f rfl rfl rfl rfl
        rw [hval]
        constructor
        · intro h
          split at h
          · rename_i hc
            cases h
            exact .passed rfl (congrArg some hc.1) (congrArg some hc.2)
          · cases h
        · intro h
          cases h with
          | environment b h => cases h
          | passed h hp hn => rw [if_pos ⟨Option.some.inj hp, Option.some.inj hn⟩]
          | config _ _ hs => rcases hs with h | h <;> cases h
          | default _ hs => rcases hs with h | h <;> cases h

theorem settings_skew {t : Table} {c : ConfigServer} (h : ServerSettings t c) : c.skewSeconds < 2 ^ 64 := by
  rcases h.2.2.2.2.2.2.2 with ⟨-, h⟩ | ⟨x, -, h⟩
  · rw [h]; decide
  · cases h with
    | int n hn => exact hn

theorem socketOk_iff (e : ServerEnv) (a : Option (List Char)) : e.socketOk a = true ↔ ∃ l, ListensOn e.socket e.pid a l ∧ e.listens l = true := by
  unfold ServerEnv.socketOk
  cases h : createServerUdpSocket e.socket e.pid none a with
  | ok l =>
    constructor
    · intro hl; exact ⟨l, (listensOn_iff ..).1 h, hl⟩
    · rintro ⟨l', h1, h2⟩
      have := (listensOn_iff ..).2 h1
      rw [h] at this
      cases this
      exact h2
  | error x =>
    constructor
    · nofun
    · rintro ⟨l', h1, h2⟩
      have := (listensOn_iff ..).2 h1
      rw [h] at this
      cases this

/-- **C108a.** A server that runs was told to: the command line was understood, the file it names could be read and has these settings, the key directory has these keys; it works with exactly
these, and has the socket that the environment, or else the settings, ask for. -/
theorem C108_server_as_told {e : ServerEnv} (hf : TomlFiles e.table) {args : List (List Char)} {w w' : World} {s : Server} (h : serverMain e args w = (.ok (.ok s), w')) :
    ∃ c keys l, ServerTold e args c keys ∧ ServerWorksWith e c keys s ∧ ListensOn e.socket e.pid c.address l ∧ e.listens l = true := by
  unfold serverMain at h
  cases hp : parseServer args with
  | error x => rw [hp] at h; cases h
  | ok p =>
    rw [hp] at h
    obtain ⟨g, hs, hm⟩ := (C96_server_reads args p).1 hp
    have hst : startServer e p w = (.ok s, w') := by
      have h1 := congrArg Prod.fst h
      have h2 := congrArg Prod.snd h
      exact Prod.ext (Except.ok.inj h1) h2
    unfold startServer at hst
    obtain ⟨c, w1, hc, hrun⟩ := act_bind_ok hst
    have hw := (ofExcept_ok hc).2
    subst hw
    replace hc := (ofExcept_ok hc).1
    unfold readTable at hc
    cases ht : e.table p with
    | none => rw [ht] at hc; cases hc
    | some t =>
      rw [ht] at hc
      have hset := (C66_server_settings t (hf p t ht).1 c).1 hc
      unfold Server.create at hrun
      obtain ⟨hs', w2, hk, hrun⟩ := act_bind_ok hrun
      have hw := (ofExcept_ok hk).2
      subst hw
      obtain ⟨keys, hkeys, hs''⟩ := loadsKeys_iff.1 (ofExcept_ok hk).1
      subst hs''
      obtain ⟨bl, w3, -, hrun⟩ := act_bind_ok hrun
      obtain ⟨floor, w4, -, hrun⟩ := act_bind_ok hrun
      obtain ⟨_, w5, -, hrun⟩ := act_bind_ok hrun
      simp only at hrun
      cases hso : e.socketOk c.address with
      | false => rw [hso] at hrun; cases hrun
      | true =>
        rw [hso] at hrun
        cases hrun
        obtain ⟨l, hl, hl'⟩ := (socketOk_iff ..).1 hso
        refine ⟨c, keys, l, ⟨g, p, t, hs, hm, ht, hset, hkeys⟩, ⟨rfl, rfl, rfl, ?_, rfl, rfl, rfl⟩, hl, hl'⟩
        show (BitVec.ofNat 64 c.skewSeconds).toNat = _
        rw [BitVec.toNat_ofNat, Nat.mod_eq_of_lt (settings_skew hset)]

/-- **C108b.** A server that was not told what to do, because its command line is not understood, the file is not readable, a setting is wrong or missing, or the keys are not there, ends with an
error and has not changed anything. -/
theorem C108_server_untold {e : ServerEnv} (hf : TomlFiles e.table) {args : List (List Char)} {w : World} (hn : ¬ ∃ c keys, ServerTold e args c keys) :
    (serverMain e args w).2 = w ∧ ((∃ x, (serverMain e args w).1 = .error x) ∨ ∃ x, (serverMain e args w).1 = .ok (.err x)) := by
  unfold serverMain
  cases hp : parseServer args with
  | error x => exact ⟨rfl, Or.inl ⟨x, rfl⟩⟩
  | ok p =>
    obtain ⟨g, hs, hm⟩ := (C96_server_reads args p).1 hp
    suffices h : ∃ x, startServer e p w = (.err x, w) by
      obtain ⟨x, h⟩ := h
      simp only [h]
      exact ⟨trivial, Or.inr ⟨x, rfl⟩⟩
    unfold startServer readTable
    cases ht : e.table p with
    | none => exact ⟨.io, rfl⟩
    | some t =>
      simp only
      cases hc : ConfigServer.deserialize t with
      | error x => exact ⟨x, rfl⟩
      | ok c =>
        have hset := (C66_server_settings t (hf p t ht).1 c).1 hc
        show ∃ x, Server.create _ _ w = _
        unfold Server.create
        simp only
        cases hk : createCryptoHandlers (e.dir (c.keyDir e.paths)) with
        | error x => exact ⟨x, rfl⟩
        | ok hs' =>
          obtain ⟨keys, hkeys, -⟩ := loadsKeys_iff.1 hk
          exact absurd ⟨c, keys, g, p, t, hs, hm, ht, hset, hkeys⟩ hn

/-- **C108c.** A server that cannot have the socket it was told to have does not run; in particular if systemd's variables are for another process, or for another number of sockets than one. -/
theorem C108_no_other_socket {e : ServerEnv} (hf : TomlFiles e.table) {args : List (List Char)} {w w' : World} {s : Server}
    (hn : ∀ c keys l, ServerTold e args c keys → ListensOn e.socket e.pid c.address l → e.listens l = false) : serverMain e args w ≠ (.ok (.ok s), w') := by
  intro h
  obtain ⟨c, keys, l, h1, -, h2, h3⟩ := C108_server_as_told hf h
  rw [hn c keys l h1 h2] at h3
  cases h3

/-! ## The commander -/

theorem acquireLock_got {lock : Path} {held : Bool} {w w' : World} (h : acquireLock lock held w = (.ok (), w')) : held = false := by
  cases held with
  | false => rfl
  | true =>
    have := acquireLock_held lock w
    unfold wp at this
    rw [h] at this
    exact absurd rfl this

theorem createListener_got {c : Commander} {held names : Bool} {w w' : World} (h : c.createListener held names w = (.ok (), w')) : held = false ∧ names = true := by
  unfold Commander.createListener at h
  cases hp : parent c.socketPath with
  | none => rw [hp] at h; cases h
  | some dir =>
    rw [hp] at h
    obtain ⟨_, w1, -, h⟩ := act_bind_ok h
    obtain ⟨_, w2, hl, h⟩ := act_bind_ok h
    refine ⟨acquireLock_got hl, ?_⟩
    obtain ⟨_, w3, -, h⟩ := act_bind_ok h
    obtain ⟨_, w4, -, h⟩ := act_bind_ok h
    obtain ⟨_, w5, -, h⟩ := act_bind_ok h
    obtain ⟨_, w6, -, h⟩ := act_bind_ok h
    obtain ⟨_, w7, -, h⟩ := act_bind_ok h
    obtain ⟨_, w8, -, h⟩ := act_bind_ok h
    unfold changeOwnership at h
    cases names with
    | true => rfl
    | false => cases h

theorem loadCommander_ok {e : CmdrEnv} {hash : List Char → U64} {p q : Path} {k : Commander} (h : loadCommander e hash p q = .ok k) :
    ∃ t cm c r, e.table p = some t ∧ e.table q = some cm ∧ ConfigCommander.deserialize t = .ok c ∧ commandsDeserialize cm = .ok r ∧ k = Commander.create c r hash e.paths := by
  unfold loadCommander at h
  obtain ⟨c, hc, h⟩ := except_bind_ok.1 h
  obtain ⟨r, hr, h⟩ := except_bind_ok.1 h
  unfold readTable at hc hr
  cases ht : e.table p with
  | none => rw [ht] at hc; cases hc
  | some t =>
    cases hq : e.table q with
    | none => rw [hq] at hr; cases hr
    | some cm =>
      rw [ht] at hc
      rw [hq] at hr
      cases h
      exact ⟨t, cm, c, r, rfl, rfl, hc, hr, rfl⟩

theorem loadCommander_told {e : CmdrEnv} (hf : TomlFiles e.table) {hash : List Char → U64} {args : List (List Char)} {p q : Path} {k : Commander} (hp : parseCommander args = .ok (p, q))
    (h : loadCommander e hash p q = .ok k) : ∃ c entries, CommanderTold e args c entries ∧ CommanderWorksWith e hash c entries k := by
  obtain ⟨g, hs, hm, hm'⟩ := (C96_commander_reads args p q).1 hp
  obtain ⟨t, cm, c, r, ht, hcm, hc, hr, rfl⟩ := loadCommander_ok h
  have hd := hf q cm hcm
  obtain ⟨entries, hfile⟩ := (C69_accepted_iff cm hd.1 (fun en he => (hd.2 en he).2)).1 ⟨r, hr⟩
  have hset := (C66_commander_settings t (hf p t ht).1 c).1 hc
  have := C69_commands cm entries hd.1 hfile.1 (hd.2 _ hfile.1).1 (hd.2 _ hfile.1).2 r hr c hash e.paths
  exact ⟨c, entries, ⟨g, p, q, t, cm, hs, hm, hm', ht, hcm, hset, hfile⟩, rfl, rfl, rfl, rfl, this.1, this.2⟩

/-- **C108d.** A commander that runs was told to, works with exactly the settings and the commands of its two files, was alone, and could give its socket to the configured user and group. -/
theorem C108_commander_as_told {e : CmdrEnv} (hf : TomlFiles e.table) {hash : List Char → U64} {args : List (List Char)} {w w' : World} {k : Commander}
    (h : commanderMain e hash args w = (.ok (.ok k), w')) : ∃ c entries, CommanderTold e args c entries ∧ CommanderWorksWith e hash c entries k ∧ e.held = false ∧ e.names = true := by
  unfold commanderMain at h
  cases hp : parseCommander args with
  | error x => rw [hp] at h; cases h
  | ok pq =>
    obtain ⟨p, q⟩ := pq
    rw [hp] at h
    have hst : startCommander e hash p q w = (.ok k, w') := by
      have h1 := congrArg Prod.fst h
      have h2 := congrArg Prod.snd h
      exact Prod.ext (Except.ok.inj h1) h2
    unfold startCommander at hst
    obtain ⟨k', w1, hk, hrun⟩ := act_bind_ok hst
    have hw := (ofExcept_ok hk).2
    subst hw
    obtain ⟨_, w2, hl, hend⟩ := act_bind_ok (x := k'.createListener e.held e.names) (f := fun _ => pure k') hrun
    cases hend
    obtain ⟨c, entries, h1, h2⟩ := loadCommander_told hf hp (ofExcept_ok hk).1
    exact ⟨c, entries, h1, h2, createListener_got hl⟩

/-- **C108e.** A commander that was not told what to do ends with an error and has not changed anything: the socket of an earlier one, for example, is untouched. -/
theorem C108_commander_untold {e : CmdrEnv} (hf : TomlFiles e.table) {hash : List Char → U64} {args : List (List Char)} {w : World} (hn : ¬ ∃ c entries, CommanderTold e args c entries) :
    (commanderMain e hash args w).2 = w ∧ ((∃ x, (commanderMain e hash args w).1 = .error x) ∨ ∃ x, (commanderMain e hash args w).1 = .ok (.err x)) := by
  unfold commanderMain
  cases hp : parseCommander args with
  | error x => exact ⟨rfl, Or.inl ⟨x, rfl⟩⟩
  | ok pq =>
    obtain ⟨p, q⟩ := pq
    suffices h : ∃ x, startCommander e hash p q w = (.err x, w) by
      obtain ⟨x, h⟩ := h
      simp only [h]
      exact ⟨trivial, Or.inr ⟨x, rfl⟩⟩
    unfold startCommander
    cases hl : loadCommander e hash p q with
    | error x => exact ⟨x, rfl⟩
    | ok k =>
      obtain ⟨c, entries, h1, -⟩ := loadCommander_told hf hp hl
      exact absurd ⟨c, entries, h1⟩ hn

/-! ## Examples -/

theorem exReady_files : TomlFiles exReadyTables := by
  intro p t h
  unfold exReadyTables at h
  split at h
  · cases h
    refine ⟨by unfold DistinctKeys; decide +kernel, ?_⟩
    intro entries he
    have : Spec.lookup exReadyConfig "commands" = none := by decide +kernel
    rw [this] at he
    cases he
  · split at h
    · cases h
      refine ⟨by unfold DistinctKeys; decide +kernel, ?_⟩
      intro entries he
      cases he
      refine ⟨by unfold DistinctKeys; decide +kernel, ?_⟩
      intro name l hm
      simp only [exReadyEntries, List.mem_cons, Prod.mk.injEq, List.not_mem_nil, or_false] at hm
      rcases hm with ⟨-, h⟩ | ⟨-, h⟩
      · cases h
      · cases h
        unfold DistinctKeys
        decide +kernel
    · cases h

/-- The set-up of C97 meets the hypotheses of C108a: that server runs. -/
example : ∃ s w', serverMain exReadyServer ["--config".toList, "/etc/ruroco/config.toml".toList] (exReadyWorld 5000) = (.ok (.ok s), w') := by
  obtain ⟨s, w', h, -⟩ := C97_server_starts (by decide +kernel) (by decide +kernel) (by unfold DistinctKeys; decide +kernel) exReady_server
  exact ⟨s, w', h⟩

/-- The commander of C97 runs, too. -/
example : ∃ k w', commanderMain ⟨exReadyTables, exReadyPaths, false, true⟩ exHash [] (exReadyWorld 5000) = (.ok (.ok k), w') := by
  obtain ⟨k, w', _, h, -⟩ := C97_commander_starts (by unfold DistinctKeys; decide +kernel) exReady_commander
  exact ⟨k, w', h⟩

/-- A file that is not there. -/
example : ¬ ∃ c keys, ServerTold exReadyServer ["--config".toList, "/tmp/none".toList] c keys := by
  rintro ⟨c, keys, g, p, t, hs, hm, ht, -⟩
  have h1 := (C96_server_reads _ p).2 ⟨g, hs, hm⟩
  have h2 : parseServer ["--config".toList, "/tmp/none".toList] = .ok "/tmp/none".toList := by decide +kernel
  rw [h2] at h1
  cases h1
  have h3 : (exReadyTables "/tmp/none".toList).isSome = false := by decide +kernel
  have h4 : exReadyTables "/tmp/none".toList = some t := ht
  rw [h4] at h3
  cases h3

/-- A command line that is not understood. -/
example : ¬ ∃ c entries, CommanderTold ⟨exReadyTables, exReadyPaths, false, true⟩ ["--confg".toList, "/etc/ruroco/config.toml".toList] c entries := by
  rintro ⟨c, entries, g, p, q, t, cm, hs, hm, hm', -⟩
  have h1 := (C96_commander_reads _ p q).2 ⟨g, hs, hm, hm'⟩
  have h2 : (match parseCommander ["--confg".toList, "/etc/ruroco/config.toml".toList] with | .ok _ => true | .error _ => false) = false := by decide +kernel
  rw [h1] at h2
  cases h2

/-- A wrong `LISTEN_FDS`: no socket at all is the one to have, whatever is configured. -/
example (configured : Option (List Char)) : ¬ ∃ l, ListensOn ⟨some "7".toList, some "2".toList, none⟩ 7 configured l := by
  rintro ⟨l, h⟩
  cases h with
  | environment a h => cases h
  | passed _ _ hn => exact absurd hn (by decide)
  | config _ _ hs => rcases hs with h | h <;> cases h
  | default _ hs => rcases hs with h | h <;> cases h

end Ruroco
