import Verif.Lemmas.Config
import Verif.Props.Commander
import Verif.Spec.Terms.Config

/-!
# C66–C69: configuration files
-/

namespace Ruroco

open Spec (lookup DistinctKeys IsText IsNumber IsFlag IsAddresses Required Optional Defaulted ServerSettings CommanderSettings IsCommand CommandsFile)

/-! ## C66: the settings in force are those of the file -/

theorem optional_of_readField {sel : List Char → Bool} {conv : Toml → Except Err α} {means : Toml → α → Prop} (key : String) (hsel : ∀ k, sel k = (k == key.toList))
    (hc : ∀ {x a}, conv x = .ok a ↔ means x a) {t : Table} (hd : DistinctKeys t) {r : Option α} : readField sel conv none t = .ok r ↔ Optional t key means r := by
  rw [readField_ok hsel hd]
  unfold Optional
  constructor
  · rintro (h | ⟨x, a, h1, h2, h3⟩)
    · exact .inl h
    · exact .inr ⟨x, a, h1, hc.1 h2, h3⟩
  · rintro (h | ⟨x, a, h1, h2, h3⟩)
    · exact .inl h
    · exact .inr ⟨x, a, h1, hc.2 h2, h3⟩

theorem defaulted_iff {t : Table} {key : String} {means : Toml → α → Prop} {dflt v : α} : Defaulted t key means dflt v ↔ ∃ r, Optional t key means r ∧ v = r.getD dflt := by
  unfold Defaulted Optional
  constructor
  · rintro (⟨h, rfl⟩ | ⟨x, h, hm⟩)
    · exact ⟨none, .inl ⟨h, rfl⟩, rfl⟩
    · exact ⟨some v, .inr ⟨x, v, h, hm, rfl⟩, rfl⟩
  · rintro ⟨r, ⟨h, rfl⟩ | ⟨x, a, h, hm, rfl⟩, rfl⟩
    · exact .inl ⟨h, rfl⟩
    · exact .inr ⟨x, h, hm⟩

theorem required_iff {t : Table} {key : String} {means : Toml → α → Prop} {v : α} : Required t key means v ↔ Optional t key means (some v) := by
  unfold Required Optional
  constructor
  · rintro ⟨x, h, hm⟩
    exact .inr ⟨x, v, h, hm, rfl⟩
  · rintro (⟨_, h⟩ | ⟨x, a, h, hm, h'⟩)
    · cases h
    · cases h'; exact ⟨x, h, hm⟩

theorem serverField_sel (k : List Char) :
    (serverField k == .ips) = (k == "ips".toList) ∧ (serverField k == .address) = (k == "address".toList) ∧ (serverField k == .configDir) = (k == "config_dir".toList) ∧
    (serverField k == .blocklistDir) = (k == "blocklist_dir".toList) ∧ (serverField k == .socketDir) = (k == "socket_dir".toList) ∧
    (serverField k == .maxPerIp) = (k == "max_requests_per_second".toList) ∧ (serverField k == .maxGlobal) = (k == "max_requests_per_second_global".toList) ∧
    (serverField k == .skewSeconds) = (k == "max_clock_skew_seconds".toList) := by
  have hne : ∀ s, ¬ k = s → (k == s) = false := fun s h => by simpa using h
  unfold serverField
  repeat' split
  all_goals first
    | (subst_vars; decide +kernel)
    | (rename_i h1 h2 h3 h4 h5 h6 h7 h8; exact ⟨(by rw [hne _ h1]; rfl), (by rw [hne _ h2]; rfl), (by rw [hne _ h3]; rfl), (by rw [hne _ h4]; rfl), (by rw [hne _ h5]; rfl), (by rw [hne _ h6]; rfl), (by rw [hne _ h7]; rfl), (by rw [hne _ h8]; rfl)⟩)

theorem commanderField_sel (k : List Char) :
    (commanderField k == .configDir) = (k == "config_dir".toList) ∧ (commanderField k == .socketDir) = (k == "socket_dir".toList) ∧
    (commanderField k == .socketUser) = (k == "socket_user".toList) ∧ (commanderField k == .socketGroup) = (k == "socket_group".toList) ∧
    (commanderField k == .allowNonRoutable) = (k == "allow_non_routable_ips".toList) := by
  have hne : ∀ s, ¬ k = s → (k == s) = false := fun s h => by simpa using h
  unfold commanderField
  repeat' split
  all_goals first
    | (subst_vars; decide +kernel)
    | (rename_i h1 h2 h3 h4 h5; exact ⟨(by rw [hne _ h1]; rfl), (by rw [hne _ h2]; rfl), (by rw [hne _ h3]; rfl), (by rw [hne _ h4]; rfl), (by rw [hne _ h5]; rfl)⟩)

theorem detailField_sel (k : List Char) : (detailField k == .cmd) = (k == "cmd".toList) ∧ (detailField k == .timeoutSec) = (k == "timeout_sec".toList) := by
  have hne : ∀ s, ¬ k = s → (k == s) = false := fun s h => by simpa using h
  unfold detailField
  repeat' split
  all_goals first
    | (subst_vars; decide +kernel)
    | (rename_i h1 h2; exact ⟨(by rw [hne _ h1]; rfl), (by rw [hne _ h2]; rfl)⟩)

/-- **C66a.** The server accepts config.toml exactly if every setting it knows is given as it must be, and then works with what the file says, or with the documented default where the file
says nothing. -/
theorem C66_server_settings (t : Table) (hd : DistinctKeys t) (c : ConfigServer) : ConfigServer.deserialize t = .ok c ↔ ServerSettings t c := by
  have hsel := serverField_sel
  have key : ∀ f, t.foldlM ServerFields.visit {} = .ok f ↔
      Optional t "ips" IsAddresses f.ips ∧ Optional t "address" IsText f.address ∧ Optional t "config_dir" IsText f.configDir ∧ Optional t "blocklist_dir" IsText f.blocklistDir ∧
      Optional t "socket_dir" IsText f.socketDir ∧ Optional t "max_requests_per_second" (IsNumber 32) f.maxPerIp ∧ Optional t "max_requests_per_second_global" (IsNumber 32) f.maxGlobal ∧
      Optional t "max_clock_skew_seconds" (IsNumber 64) f.skewSeconds := by
    intro f
    rw [ServerFields.foldlM_ok]
    rw [optional_of_readField "ips" (fun k => (hsel k).1) ofExceptAddresses hd, optional_of_readField "address" (fun k => (hsel k).2.1) ofExceptText hd,
      optional_of_readField "config_dir" (fun k => (hsel k).2.2.1) ofExceptText hd, optional_of_readField "blocklist_dir" (fun k => (hsel k).2.2.2.1) ofExceptText hd,
      optional_of_readField "socket_dir" (fun k => (hsel k).2.2.2.2.1) ofExceptText hd, optional_of_readField "max_requests_per_second" (fun k => (hsel k).2.2.2.2.2.1) ofExceptNumber hd,
      optional_of_readField "max_requests_per_second_global" (fun k => (hsel k).2.2.2.2.2.2.1) ofExceptNumber hd,
      optional_of_readField "max_clock_skew_seconds" (fun k => (hsel k).2.2.2.2.2.2.2) ofExceptNumber hd]
  unfold ConfigServer.deserialize ServerSettings
  simp only [required_iff, defaulted_iff]
  constructor
  · intro h
    cases hf : t.foldlM ServerFields.visit {} with
    | error e => simp [hf, bind, Except.bind] at h
    | ok f =>
      simp only [hf, bind, Except.bind] at h
      obtain ⟨h1, h2, h3, h4, h5, h6, h7, h8⟩ := (key f).1 hf
      split at h
      · cases h
      · rename_i ips hi
        cases h
        rw [hi] at h1
        exact ⟨h1, h2, ⟨_, h3, rfl⟩, h4, h5, ⟨_, h6, rfl⟩, ⟨_, h7, rfl⟩, ⟨_, h8, rfl⟩⟩
  · rintro ⟨h1, h2, ⟨r3, h3, e3⟩, h4, h5, ⟨r6, h6, e6⟩, ⟨r7, h7, e7⟩, ⟨r8, h8, e8⟩⟩
    have := (key ⟨some c.ips, c.address, r3, c.blocklistDir, c.socketDir, r6, r7, r8⟩).2 ⟨h1, h2, h3, h4, h5, h6, h7, h8⟩
    rw [this]
    cases c
    simp only at e3 e6 e7 e8
    subst e3 e6 e7 e8
    rfl

/-- **C66b.** The same for the commander. -/
theorem C66_commander_settings (t : Table) (hd : DistinctKeys t) (c : ConfigCommander) : ConfigCommander.deserialize t = .ok c ↔ CommanderSettings t c := by
  have hsel := commanderField_sel
  have key : ∀ f, t.foldlM CommanderFields.visit {} = .ok f ↔
      Optional t "config_dir" IsText f.configDir ∧ Optional t "socket_dir" IsText f.socketDir ∧ Optional t "socket_user" IsText f.socketUser ∧ Optional t "socket_group" IsText f.socketGroup ∧
      Optional t "allow_non_routable_ips" IsFlag f.allowNonRoutable := by
    intro f
    rw [CommanderFields.foldlM_ok]
    rw [optional_of_readField "config_dir" (fun k => (hsel k).1) ofExceptText hd, optional_of_readField "socket_dir" (fun k => (hsel k).2.1) ofExceptText hd,
      optional_of_readField "socket_user" (fun k => (hsel k).2.2.1) ofExceptText hd, optional_of_readField "socket_group" (fun k => (hsel k).2.2.2.1) ofExceptText hd,
      optional_of_readField "allow_non_routable_ips" (fun k => (hsel k).2.2.2.2) ofExceptFlag hd]
  unfold ConfigCommander.deserialize CommanderSettings
  simp only [defaulted_iff]
  constructor
  · intro h
    cases hf : t.foldlM CommanderFields.visit {} with
    | error e => simp [hf, bind, Except.bind] at h
    | ok f =>
      simp only [hf, bind, Except.bind] at h
      obtain ⟨h1, h2, h3, h4, h5⟩ := (key f).1 hf
      cases h
      exact ⟨⟨_, h1, rfl⟩, h2, ⟨_, h3, rfl⟩, ⟨_, h4, rfl⟩, ⟨_, h5, rfl⟩⟩
  · rintro ⟨⟨r1, h1, e1⟩, h2, ⟨r3, h3, e3⟩, ⟨r4, h4, e4⟩, ⟨r5, h5, e5⟩⟩
    have := (key ⟨r1, c.socketDir, r3, r4, r5⟩).2 ⟨h1, h2, h3, h4, h5⟩
    rw [this]
    cases c
    simp only at e1 e3 e4 e5
    subst e1 e3 e4 e5
    rfl

/-! ## C67: no setting is silently without effect -/

theorem lookup_iff_mem {t : Table} (hd : DistinctKeys t) {key : String} {x : Toml} : lookup t key = some x ↔ (key.toList, x) ∈ t := by
  unfold lookup
  induction t with
  | nil => simp
  | cons e rest ih =>
    simp only [DistinctKeys, List.map_cons, List.nodup_cons] at hd
    cases hb : (e.1 == key.toList) with
    | true =>
      have hk := eq_of_beq hb
      rw [List.find?_cons, hb]
      simp only [Option.map_some, Option.some.injEq, List.mem_cons]
      constructor
      · rintro rfl
        exact .inl (by rw [← hk])
      · rintro (h | h)
        · rw [← h]
        · exact absurd (List.mem_map.2 ⟨_, h, hk.symm⟩) hd.1
    | false =>
      rw [List.find?_cons, hb]
      simp only [List.mem_cons]
      rw [ih hd.2]
      refine ⟨.inr, ?_⟩
      rintro (h | h)
      · rw [← h] at hb
        simp at hb
      · exact h

theorem Spec.Optional.present {t : Table} {key : String} {means : Toml → α → Prop} {v : Option α} {x : Toml} (h : Optional t key means v) (hx : lookup t key = some x) :
    ∃ a, v = some a ∧ means x a := by
  rcases h with ⟨h, _⟩ | ⟨x', a, h, hm, hv⟩
  · rw [h] at hx; cases hx
  · rw [h] at hx; cases hx; exact ⟨a, hv, hm⟩

theorem Spec.Defaulted.present {t : Table} {key : String} {means : Toml → α → Prop} {dflt v : α} {x : Toml} (h : Defaulted t key means dflt v) (hx : lookup t key = some x) : means x v := by
  rcases h with ⟨h, _⟩ | ⟨x', h, hm⟩
  · rw [h] at hx; cases hx
  · rw [h] at hx; cases hx; exact hm

theorem Spec.Required.present {t : Table} {key : String} {means : Toml → α → Prop} {v : α} {x : Toml} (h : Required t key means v) (hx : lookup t key = some x) : means x v := by
  obtain ⟨x', h, hm⟩ := h
  rw [h] at hx; cases hx; exact hm

/-- **C67, the part that holds.** If both programs accept config.toml, each of the ten settings one of them knows that is in the file is in force with the value in the file. (In particular
a value of the wrong kind or out of range is refused.) Missing: keys that neither knows, see `C67_unknown_ignored`. -/
theorem C67_known_settings_partial (t : Table) (hd : DistinctKeys t) (c : ConfigServer) (d : ConfigCommander) (hc : ConfigServer.deserialize t = .ok c)
    (hd' : ConfigCommander.deserialize t = .ok d) (x : Toml) :
    (("ips".toList, x) ∈ t → IsAddresses x c.ips) ∧ (("address".toList, x) ∈ t → ∃ a, c.address = some a ∧ IsText x a) ∧
    (("config_dir".toList, x) ∈ t → IsText x c.configDir ∧ IsText x d.configDir) ∧ (("blocklist_dir".toList, x) ∈ t → ∃ p, c.blocklistDir = some p ∧ IsText x p) ∧
    (("socket_dir".toList, x) ∈ t → ∃ p, c.socketDir = some p ∧ d.socketDir = some p ∧ IsText x p) ∧ (("max_requests_per_second".toList, x) ∈ t → IsNumber 32 x c.maxPerIp) ∧
    (("max_requests_per_second_global".toList, x) ∈ t → IsNumber 32 x c.maxGlobal) ∧ (("max_clock_skew_seconds".toList, x) ∈ t → IsNumber 64 x c.skewSeconds) ∧
    (("socket_user".toList, x) ∈ t → IsText x d.socketUser) ∧ (("socket_group".toList, x) ∈ t → IsText x d.socketGroup) ∧
    (("allow_non_routable_ips".toList, x) ∈ t → IsFlag x d.allowNonRoutable) := by
  obtain ⟨h1, h2, h3, h4, h5, h6, h7, h8⟩ := (C66_server_settings t hd c).1 hc
  obtain ⟨g1, g2, g3, g4, g5⟩ := (C66_commander_settings t hd d).1 hd'
  simp only [← lookup_iff_mem hd]
  refine ⟨h1.present, fun h => h2.present h, fun h => ⟨h3.present h, g1.present h⟩, fun h => h4.present h, fun h => ?_, fun h => h6.present h, fun h => h7.present h, fun h => h8.present h,
    fun h => g3.present h, fun h => g4.present h, fun h => g5.present h⟩
  obtain ⟨p, e1, m1⟩ := h5.present h
  obtain ⟨q, e2, m2⟩ := g2.present h
  cases m1
  cases m2
  exact ⟨_, e1, e2, .str _⟩

/-- **C67 fails.** A key that a program does not know, such as a misspelt one, is ignored, wherever it stands in the file. -/
theorem C67_unknown_ignored (a b : Table) (k : List Char) (x : Toml) :
    (k ∉ Spec.serverSettings → ConfigServer.deserialize (a ++ (k, x) :: b) = ConfigServer.deserialize (a ++ b)) ∧
    (k ∉ Spec.commanderSettings → ConfigCommander.deserialize (a ++ (k, x) :: b) = ConfigCommander.deserialize (a ++ b)) := by
  constructor
  · intro hk
    replace hk : serverField k = .ignore := by
      simp only [Spec.serverSettings, List.mem_cons, List.not_mem_nil, or_false, not_or] at hk
      unfold serverField
      rw [if_neg hk.1, if_neg hk.2.1, if_neg hk.2.2.1, if_neg hk.2.2.2.1, if_neg hk.2.2.2.2.1, if_neg hk.2.2.2.2.2.1, if_neg hk.2.2.2.2.2.2.1, if_neg hk.2.2.2.2.2.2.2]
    unfold ConfigServer.deserialize
    have : (a ++ (k, x) :: b).foldlM ServerFields.visit {} = (a ++ b).foldlM ServerFields.visit {} := by
      rw [List.foldlM_append, List.foldlM_append]
      congr 1
      funext f
      rw [List.foldlM_cons]
      simp only [ServerFields.visit, hk, bind, Except.bind]
    rw [this]
  · intro hk
    replace hk : commanderField k = .ignore := by
      simp only [Spec.commanderSettings, List.mem_cons, List.not_mem_nil, or_false, not_or] at hk
      unfold commanderField
      rw [if_neg hk.1, if_neg hk.2.1, if_neg hk.2.2.1, if_neg hk.2.2.2.1, if_neg hk.2.2.2.2]
    unfold ConfigCommander.deserialize
    have : (a ++ (k, x) :: b).foldlM CommanderFields.visit {} = (a ++ b).foldlM CommanderFields.visit {} := by
      rw [List.foldlM_append, List.foldlM_append]
      congr 1
      funext f
      rw [List.foldlM_cons]
      simp only [CommanderFields.visit, hk, bind, Except.bind]
    rw [this]

/-- A file whose author wants one request per second, but misspelt the setting: both programs start, with the default of two. -/
def exMisspelt : Table := [("ips".toList, .arr [.str "127.0.0.1".toList]), ("max_request_per_second".toList, .int 1)]

theorem C67_misspelt_limit_ignored : DistinctKeys exMisspelt ∧ (∃ c, ConfigServer.deserialize exMisspelt = .ok c ∧ c.maxPerIp = 2) ∧ ∃ d, ConfigCommander.deserialize exMisspelt = .ok d := by
  refine ⟨by unfold DistinctKeys; decide +kernel, ⟨⟨[.v4 0x7f000001], none, "/etc/ruroco".toList, none, none, 2, 100, 3600⟩, ?_, rfl⟩, ⟨⟨"/etc/ruroco".toList, none, "ruroco".toList, "ruroco".toList, false⟩, ?_⟩⟩ <;> decide +kernel

/-! ## C68: server and commander meet at the same socket -/

/-- **C68a.** If both programs accept the file and are started in the same working directory, with the same links in the file system, the server sends to the socket the commander listens on. -/
theorem C68_same_socket (t : Table) (hd : DistinctKeys t) (c : ConfigServer) (d : ConfigCommander) (hc : ConfigServer.deserialize t = .ok c) (hd' : ConfigCommander.deserialize t = .ok d)
    (commands : List (List Char × CommandValue)) (hash : List Char → U64) (env : PathEnv) : c.socketPath env = (Commander.create d commands hash env).socketPath := by
  obtain ⟨-, -, h3, -, h5, -⟩ := (C66_server_settings t hd c).1 hc
  obtain ⟨g1, g2, -⟩ := (C66_commander_settings t hd d).1 hd'
  have e1 : c.configDir = d.configDir := by
    cases hl : lookup t "config_dir" with
    | none =>
      rcases h3 with ⟨_, h⟩ | ⟨x, h, _⟩
      · rcases g1 with ⟨_, g⟩ | ⟨x, g, _⟩
        · rw [h, g]
        · rw [hl] at g; cases g
      · rw [hl] at h; cases h
    | some x =>
      have m1 := h3.present hl
      have m2 := g1.present hl
      revert m1 m2
      generalize c.configDir = p, d.configDir = q
      intro m1 m2
      cases m1; cases m2; rfl
  have e2 : c.socketDir = d.socketDir := by
    cases hl : lookup t "socket_dir" with
    | none =>
      rcases h5 with ⟨_, h⟩ | ⟨x, a, h, _⟩
      · rcases g2 with ⟨_, g⟩ | ⟨x, a, g, _⟩
        · rw [h, g]
        · rw [hl] at g; cases g
      · rw [hl] at h; cases h
    | some x =>
      obtain ⟨p, h, m1⟩ := h5.present hl
      obtain ⟨q, g, m2⟩ := g2.present hl
      cases m1; cases m2
      rw [h, g]
  unfold ConfigServer.socketPath Commander.create
  rw [e1, e2]

/-- **C68b.** If the directory in the file is an absolute path (as in the shipped file, and by default), this is so whatever the working directories are; the socket is then the file
`ruroco.socket` in that directory. -/
theorem C68_absolute (t : Table) (hd : DistinctKeys t) (c : ConfigServer) (d : ConfigCommander) (hc : ConfigServer.deserialize t = .ok c) (hd' : ConfigCommander.deserialize t = .ok d)
    (commands : List (List Char × CommandValue)) (hash : List Char → U64) (env env' : PathEnv) (habs : isAbsolute (c.socketDir.getD c.configDir) = true) :
    c.socketPath env = (Commander.create d commands hash env').socketPath ∧
    (c.socketPath env = c.socketDir.getD c.configDir ++ "/ruroco.socket".toList ∨ c.socketPath env = c.socketDir.getD c.configDir ++ "ruroco.socket".toList) := by
  have hr : ∀ e : PathEnv, resolvePath e (c.socketDir.getD c.configDir) = c.socketDir.getD c.configDir := fun e => by unfold resolvePath; rw [if_pos habs]
  constructor
  · rw [← C68_same_socket t hd c d hc hd' commands hash env']
    unfold ConfigServer.socketPath commanderSocketPath
    rw [hr env, hr env']
  · unfold ConfigServer.socketPath commanderSocketPath
    rw [hr env]
    unfold pathPush
    rw [if_neg (by decide)]
    split
    · exact .inr rfl
    · exact .inl rfl

/-- The restriction to one working directory is needed for relative paths: started in different directories, the two never meet. -/
theorem C68_relative_differs : ∃ (t : Table) (c : ConfigServer) (d : ConfigCommander) (env env' : PathEnv), ConfigServer.deserialize t = .ok c ∧ ConfigCommander.deserialize t = .ok d ∧
    c.socketPath env ≠ (Commander.create d [] (fun _ => 0) env').socketPath :=
  ⟨[("ips".toList, .arr []), ("socket_dir".toList, .str "run".toList)], ⟨[], none, "/etc/ruroco".toList, none, some "run".toList, 2, 100, 3600⟩,
    ⟨"/etc/ruroco".toList, some "run".toList, "ruroco".toList, "ruroco".toList, false⟩, ⟨some "/a".toList, fun p => some p⟩, ⟨some "/b".toList, fun p => some p⟩, by decide +kernel, by decide +kernel,
    by decide +kernel⟩

/-- **C66**, in force: the server works with the addresses, limits and directories of its config.toml (directories given as absolute paths), and so does the commander. -/
theorem C66_in_force (t : Table) (hd : DistinctKeys t) (env : PathEnv) :
    (∀ c, ConfigServer.deserialize t = .ok c →
      Spec.Required t "ips" Spec.IsAddresses (c.running env).ips ∧
      Spec.Defaulted t "max_requests_per_second" (Spec.IsNumber 32) 2 (c.running env).maxPerIp ∧
      Spec.Defaulted t "max_requests_per_second_global" (Spec.IsNumber 32) 100 (c.running env).maxGlobal ∧
      Spec.Defaulted t "max_clock_skew_seconds" (Spec.IsNumber 64) 3600 (c.running env).skewSeconds.toNat ∧
      ∃ keys, Spec.Defaulted t "config_dir" Spec.IsText "/etc/ruroco".toList keys ∧ (keys.head? = some '/' → c.keyDir env = keys) ∧
        ∃ state, Spec.Defaulted t "blocklist_dir" Spec.IsText keys state ∧ (state.head? = some '/' → (c.running env).blDir = state)) ∧
    ∀ d commands hash, ConfigCommander.deserialize t = .ok d →
      Spec.Defaulted t "socket_user" Spec.IsText "ruroco".toList (Commander.create d commands hash env).socketUser ∧
      Spec.Defaulted t "socket_group" Spec.IsText "ruroco".toList (Commander.create d commands hash env).socketGroup ∧
      Spec.Defaulted t "allow_non_routable_ips" Spec.IsFlag false (Commander.create d commands hash env).allowNonRoutable := by
  have absolute : ∀ p : Path, p.head? = some '/' → resolvePath env p = p := by
    intro p hp
    unfold resolvePath
    rw [if_pos (by unfold isAbsolute; rw [hp]; rfl)]
  refine ⟨fun c hc => ?_, fun d commands hash h => ?_⟩
  · obtain ⟨h1, _, h3, h4, _, h6, h7, h8⟩ := (C66_server_settings t hd c).1 hc
    refine ⟨h1, h6, h7, ?_, c.configDir, h3, absolute _, c.blocklistDir.getD c.configDir, ?_, absolute _⟩
    · have : (c.running env).skewSeconds.toNat = c.skewSeconds := by
        show (BitVec.ofNat 64 c.skewSeconds).toNat = c.skewSeconds
        rw [BitVec.toNat_ofNat]
        apply Nat.mod_eq_of_lt
        rcases h8 with ⟨_, h⟩ | ⟨x, _, h⟩
        · rw [h]; decide
        · cases h; assumption
      rw [this]
      exact h8
    · rcases h4 with ⟨h, h'⟩ | ⟨x, a, h, h', h''⟩
      · exact .inl ⟨h, by rw [h']; rfl⟩
      · exact .inr ⟨x, h, by rw [h'']; exact h'⟩
  · obtain ⟨_, _, h3, h4, h5⟩ := (C66_commander_settings t hd d).1 h
    exact ⟨h3, h4, h5⟩

/-- Non-vacuity of C66 and C68: the shipped config.toml. -/
def exShipped : Table :=
  [("ips".toList, .arr [.str "127.0.0.1".toList, .str "dead:beef:dead:beef:dead:beef:dead:beef".toList]), ("address".toList, .str "[::]:34020".toList), ("config_dir".toList, .str "/etc/ruroco/".toList),
   ("blocklist_dir".toList, .str "/var/lib/ruroco".toList), ("socket_dir".toList, .str "/run/ruroco".toList), ("socket_user".toList, .str "ruroco".toList), ("socket_group".toList, .str "ruroco".toList)]

example : DistinctKeys exShipped ∧
    ConfigServer.deserialize exShipped = .ok ⟨[.v4 0x7f000001, .v6 0xdeadbeefdeadbeefdeadbeefdeadbeef], some "[::]:34020".toList, "/etc/ruroco/".toList, some "/var/lib/ruroco".toList,
      some "/run/ruroco".toList, 2, 100, 3600⟩ ∧
    ConfigCommander.deserialize exShipped = .ok ⟨"/etc/ruroco/".toList, some "/run/ruroco".toList, "ruroco".toList, "ruroco".toList, false⟩ ∧
    (∀ env, ConfigServer.socketPath ⟨[], none, "/etc/ruroco/".toList, none, some "/run/ruroco".toList, 2, 100, 3600⟩ env = "/run/ruroco/ruroco.socket".toList) :=
  ⟨by unfold DistinctKeys; decide +kernel, by decide +kernel, by decide +kernel, fun _ => by rfl⟩

/-- Values of the wrong kind or out of range are refused. -/
example : ConfigServer.deserialize [("ips".toList, .arr []), ("max_requests_per_second".toList, .int (-1))] = .error .parse ∧
    ConfigServer.deserialize [("ips".toList, .arr []), ("max_requests_per_second".toList, .int 4294967296)] = .error .parse ∧
    ConfigServer.deserialize [("ips".toList, .str "127.0.0.1".toList)] = .error .parse ∧ ConfigServer.deserialize [] = .error .parse := by decide +kernel

/-! ## C69: commands.toml -/

theorem mapM_entries {l : Table} {r : List (List Char × CommandValue)} (h : l.mapM readCommand = .ok r) :
    r.map Prod.fst = l.map Prod.fst ∧ (∀ name v, (name, v) ∈ r → ∃ x, (name, x) ∈ l ∧ x.asCommand = .ok v) ∧ ∀ name x, (name, x) ∈ l → ∃ v, (name, v) ∈ r ∧ x.asCommand = .ok v := by
  induction l generalizing r with
  | nil => cases h; exact ⟨rfl, nofun, nofun⟩
  | cons e l ih =>
    rw [List.mapM_cons] at h
    cases hc : e.2.asCommand with
    | error er => simp [readCommand, hc, Except.map, bind, Except.bind] at h
    | ok v =>
      cases hl : l.mapM readCommand with
      | error er =>
        have : readCommand e = .ok (e.1, v) := by unfold readCommand; rw [hc]; rfl
        simp [this, hl, bind, Except.bind] at h
      | ok r' =>
        have : readCommand e = .ok (e.1, v) := by unfold readCommand; rw [hc]; rfl
        simp only [this, hl, bind, Except.bind] at h
        cases h
        obtain ⟨h1, h2, h3⟩ := ih hl
        refine ⟨by simp [h1], fun name v' hm => ?_, fun name x hm => ?_⟩
        · rcases List.mem_cons.1 hm with hm | hm
          · cases hm; exact ⟨e.2, List.mem_cons_self .., hc⟩
          · obtain ⟨x, hx, hv⟩ := h2 name v' hm
            exact ⟨x, List.mem_cons_of_mem _ hx, hv⟩
        · rcases List.mem_cons.1 hm with hm | hm
          · subst hm; exact ⟨v, List.mem_cons_self .., hc⟩
          · obtain ⟨v', hv, hx⟩ := h3 name x hm
            exact ⟨v', List.mem_cons_of_mem _ hv, hx⟩

theorem mapM_entries_ok {l : Table} (h : ∀ name x, (name, x) ∈ l → ∃ v, x.asCommand = .ok v) : ∃ r, l.mapM readCommand = .ok r := by
  induction l with
  | nil => exact ⟨[], rfl⟩
  | cons e l ih =>
    obtain ⟨v, hv⟩ := h e.1 e.2 (List.mem_cons_self ..)
    obtain ⟨r, hr⟩ := ih (fun name x hm => h name x (List.mem_cons_of_mem _ hm))
    exact ⟨(e.1, v) :: r, by
      have : readCommand e = .ok (e.1, v) := by unfold readCommand; rw [hv]; rfl
      rw [List.mapM_cons, this, hr]; rfl⟩

theorem asCommand_iff {x : Toml} (hd : ∀ l, x = .tbl l → DistinctKeys l) {cmd : List Char} {n : Nat} :
    (∃ v, x.asCommand = .ok v ∧ Spec.commandText v = cmd ∧ Spec.timeLimit v = n) ↔ IsCommand x cmd n := by
  cases x with
  | str s =>
    constructor
    · rintro ⟨v, h, rfl, rfl⟩; cases h; exact .plain s
    · intro h; cases h; exact ⟨_, rfl, rfl, rfl⟩
  | tbl l =>
    have hd := hd l rfl
    have key : ∀ f, l.foldlM DetailFields.visit {} = .ok f ↔ Optional l "cmd" IsText f.cmd ∧ Optional l "timeout_sec" (IsNumber 64) f.timeoutSec := by
      intro f
      rw [DetailFields.foldlM_ok, optional_of_readField "cmd" (fun k => (detailField_sel k).1) ofExceptText hd,
        optional_of_readField "timeout_sec" (fun k => (detailField_sel k).2) ofExceptNumber hd]
    have lim : ∀ (c : List Char) (o : Option Nat), Optional l "timeout_sec" (IsNumber 64) o → Spec.timeLimit (.detailed c (o.map (BitVec.ofNat 64))) = o.getD 30 := by
      intro c o ho
      cases o with
      | none => rfl
      | some m =>
        rcases ho with ⟨_, h⟩ | ⟨x, a, _, hm, h⟩
        · cases h
        · cases h
          cases hm with
          | int _ h => simp [Spec.timeLimit, BitVec.toNat_ofNat, Nat.mod_eq_of_lt h]
    constructor
    · rintro ⟨v, h, rfl, rfl⟩
      unfold Toml.asCommand at h
      cases hf : l.foldlM DetailFields.visit {} with
      | error e => simp [hf, bind, Except.bind] at h
      | ok f =>
        obtain ⟨h1, h2⟩ := (key f).1 hf
        simp only [hf, bind, Except.bind] at h
        split at h
        · cases h
        · rename_i c hc
          cases h
          rw [hc] at h1
          rw [lim _ _ h2]
          exact .detailed l c _ (required_iff.2 h1) (defaulted_iff.2 ⟨_, h2, rfl⟩)
    · intro h
      cases h with
      | detailed _ _ _ hc ht =>
        obtain ⟨o, ho, rfl⟩ := defaulted_iff.1 ht
        have := (key ⟨some cmd, o⟩).2 ⟨required_iff.1 hc, ho⟩
        refine ⟨.detailed cmd (o.map (BitVec.ofNat 64)), ?_, rfl, lim _ _ ho⟩
        simp only [Toml.asCommand, this, bind, Except.bind]
        rfl
  | _ => exact ⟨nofun, nofun⟩

theorem commandsDeserialize_ok {t : Table} (hd : DistinctKeys t) {r : List (List Char × CommandValue)} :
    commandsDeserialize t = .ok r ↔ ∃ x, lookup t "commands" = some x ∧ x.asCommands = .ok r := by
  have hfold : ∀ (t : Table) (a : Option (List (List Char × CommandValue))), t.foldlM visitCommands a = readField (fun k => k == "commands".toList) Toml.asCommands a t := by
    intro t
    induction t with
    | nil => intro a; rfl
    | cons e rest ih =>
      intro a
      rw [List.foldlM_cons]
      unfold visitCommands readField
      by_cases hk : e.1 = "commands".toList
      · rw [if_pos hk, if_pos (by rw [hk]; decide)]
        cases fillField a Toml.asCommands e.2 with
        | error er => rfl
        | ok v => exact ih v
      · rw [if_neg hk, if_neg (by simpa using hk)]
        exact ih a
  unfold commandsDeserialize
  rw [hfold]
  have key := fun (o : Option (List (List Char × CommandValue))) => readField_ok (sel := fun k => k == "commands".toList) (conv := Toml.asCommands) (key := "commands") (fun _ => rfl) hd (r := o)
  constructor
  · intro h
    cases hr : readField (fun k => k == "commands".toList) Toml.asCommands none t with
    | error e => rw [hr] at h; cases h
    | ok o =>
      simp only [hr, bind, Except.bind] at h
      rcases (key o).1 hr with ⟨_, rfl⟩ | ⟨x, a, h1, h2, rfl⟩
      · cases h
      · cases h; exact ⟨x, h1, h2⟩
  · rintro ⟨x, h1, h2⟩
    rw [(key (some r)).2 (.inr ⟨x, r, h1, h2, rfl⟩)]
    rfl

/-- **C69a.** commands.toml is accepted exactly if it has a table `commands` in which every entry is a text, or a table with a text `cmd` and, if there is a `timeout_sec`, a whole number of
seconds. -/
theorem C69_accepted_iff (t : Table) (hd : DistinctKeys t) (hin : ∀ entries, lookup t "commands" = some (.tbl entries) → DistinctInside entries) :
    (∃ r, commandsDeserialize t = .ok r) ↔ ∃ entries, CommandsFile t entries := by
  constructor
  · rintro ⟨r, h⟩
    obtain ⟨x, h1, h2⟩ := (commandsDeserialize_ok hd).1 h
    cases x with
    | tbl l =>
      obtain ⟨-, -, h3⟩ := mapM_entries h2
      refine ⟨l, h1, fun name x hm => ?_⟩
      obtain ⟨v, _, hv⟩ := h3 name x hm
      exact ⟨_, _, (asCommand_iff (fun l' e => hin l h1 name l' (e ▸ hm))).1 ⟨v, hv, rfl, rfl⟩⟩
    | _ => cases h2
  · rintro ⟨l, h1, h2⟩
    obtain ⟨r, hr⟩ := mapM_entries_ok (l := l) (fun name x hm => by
      obtain ⟨cmd, n, hc⟩ := h2 name x hm
      obtain ⟨v, hv, _⟩ := (asCommand_iff (fun l' e => hin l h1 name l' (e ▸ hm))).2 hc
      exact ⟨v, hv⟩)
    exact ⟨r, (commandsDeserialize_ok hd).2 ⟨_, h1, hr⟩⟩

/-- **C69b.** What the commander then runs for a received hash is a command of the file, with the text and the time limit given there, whose name has that hash; and if no two names of the
file have the same hash, every command of the file can be run by its name. -/
theorem C69_commands (t entries : Table) (hd : DistinctKeys t) (hl : lookup t "commands" = some (.tbl entries)) (hde : DistinctKeys entries) (hin : DistinctInside entries)
    (r : List (List Char × CommandValue)) (h : commandsDeserialize t = .ok r) (d : ConfigCommander) (hash : List Char → U64) (env : PathEnv) :
    (∀ hsh spec, (Commander.create d r hash env).cmds.get hsh = some spec → ∃ name x, (name, x) ∈ entries ∧ hash name = hsh ∧ IsCommand x spec.cmd spec.timeout) ∧
    ((∀ e ∈ entries, ∀ e' ∈ entries, hash e.1 = hash e'.1 → e.1 = e'.1) → ∀ name x cmd n, (name, x) ∈ entries → IsCommand x cmd n →
      (Commander.create d r hash env).cmds.get (hash name) = some ⟨cmd, n⟩) := by
  obtain ⟨x, h1, h2⟩ := (commandsDeserialize_ok hd).1 h
  rw [hl] at h1
  cases h1
  obtain ⟨hk, ha, hb⟩ := mapM_entries h2
  constructor
  · intro hsh spec hg
    obtain ⟨name, v, hm, hh, rfl⟩ := C26_selected_is_configured hash r hsh spec hg
    obtain ⟨x, hx, hv⟩ := ha name v hm
    exact ⟨name, x, hx, hh, (asCommand_iff (fun l e => hin name l (e ▸ hx))).1 ⟨v, hv, rfl, rfl⟩⟩
  · intro hinj name x cmd n hx hc
    obtain ⟨v, hm, hv⟩ := hb name x hx
    obtain ⟨v', hv', rfl, rfl⟩ := (asCommand_iff (fun l e => hin name l (e ▸ hx))).2 hc
    rw [hv] at hv'
    cases hv'
    refine C26_configured_is_selected hash r (by rw [hk]; exact hde) ?_ name v hm
    intro e he e' he' heq
    obtain ⟨x1, m1, _⟩ := ha e.1 e.2 he
    obtain ⟨x2, m2, _⟩ := ha e'.1 e'.2 he'
    exact hinj _ m1 _ m2 heq

/-- Non-vacuity of C69: the shipped commands and the documented table form. -/
def exCommandsFile : Table :=
  [("commands".toList, .tbl [("open_port".toList, .str "ufw allow".toList), ("slow_task".toList, .tbl [("cmd".toList, .str "long".toList), ("timeout_sec".toList, .int 120)])])]

example : commandsDeserialize exCommandsFile = .ok [("open_port".toList, .plain "ufw allow".toList), ("slow_task".toList, .detailed "long".toList (some 120))] := by decide +kernel

/-- **C67 also fails in commands.toml**: a misspelt time limit is ignored, and the command gets thirty seconds. -/
theorem C67_misspelt_timeout_ignored :
    commandsDeserialize [("commands".toList, .tbl [("a".toList, .tbl [("cmd".toList, .str "x".toList), ("timeout".toList, .int 5)])])] = .ok [("a".toList, .detailed "x".toList none)] ∧
    Spec.timeLimit (.detailed "x".toList none) = 30 := by decide +kernel

end Ruroco
