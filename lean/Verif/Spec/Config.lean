import Verif.Model.Config

/-!
# Specification of the configuration files

What a file means, setting by setting, independent of the order in which the settings appear in it.
-/

namespace Ruroco.Spec

/-- The value of a key in a table. -/
def lookup (t : Table) (key : String) : Option Toml := (t.find? (fun e => e.1 == key.toList)).map (·.2)

/-- No key appears twice: what a TOML parser guarantees. -/
def DistinctKeys (t : Table) : Prop := (t.map Prod.fst).Nodup

inductive IsText : Toml → List Char → Prop where
  | str (s : List Char) : IsText (.str s) s

/-- A whole number that fits into this many bits. -/
inductive IsNumber (bits : Nat) : Toml → Nat → Prop where
  | int (n : Nat) (h : n < 2 ^ bits) : IsNumber bits (.int n) n

inductive IsFlag : Toml → Bool → Prop where
  | bool (b : Bool) : IsFlag (.bool b) b

/-- A list of texts, each an IP address; IPv4 addresses mapped into IPv6 count as IPv4. -/
inductive IsAddresses : Toml → List Ip → Prop where
  | nil : IsAddresses (.arr []) []
  | cons (s : List Char) (ip : Ip) (l : List Toml) (ips : List Ip) (h : parseIp s = some ip) (hl : IsAddresses (.arr l) ips) : IsAddresses (.arr (.str s :: l)) (normalizeIp ip :: ips)

/-- The setting must be given. -/
def Required (t : Table) (key : String) (means : Toml → α → Prop) (v : α) : Prop := ∃ x, lookup t key = some x ∧ means x v

/-- The setting may be left out, and then is absent. -/
def Optional (t : Table) (key : String) (means : Toml → α → Prop) (v : Option α) : Prop :=
  (lookup t key = none ∧ v = none) ∨ ∃ x a, lookup t key = some x ∧ means x a ∧ v = some a

/-- The setting may be left out, and then has this value. -/
def Defaulted (t : Table) (key : String) (means : Toml → α → Prop) (dflt v : α) : Prop :=
  (lookup t key = none ∧ v = dflt) ∨ ∃ x, lookup t key = some x ∧ means x v

/-- config.toml for the server. -/
def ServerSettings (t : Table) (c : ConfigServer) : Prop :=
  Required t "ips" IsAddresses c.ips ∧
  Optional t "address" IsText c.address ∧
  Defaulted t "config_dir" IsText "/etc/ruroco".toList c.configDir ∧
  Optional t "blocklist_dir" IsText c.blocklistDir ∧
  Optional t "socket_dir" IsText c.socketDir ∧
  Defaulted t "max_requests_per_second" (IsNumber 32) 2 c.maxPerIp ∧
  Defaulted t "max_requests_per_second_global" (IsNumber 32) 100 c.maxGlobal ∧
  Defaulted t "max_clock_skew_seconds" (IsNumber 64) 3600 c.skewSeconds

/-- config.toml for the commander. -/
def CommanderSettings (t : Table) (c : ConfigCommander) : Prop :=
  Defaulted t "config_dir" IsText "/etc/ruroco".toList c.configDir ∧
  Optional t "socket_dir" IsText c.socketDir ∧
  Defaulted t "socket_user" IsText "ruroco".toList c.socketUser ∧
  Defaulted t "socket_group" IsText "ruroco".toList c.socketGroup ∧
  Defaulted t "allow_non_routable_ips" IsFlag false c.allowNonRoutable

/-- The names of the settings that the server reads from config.toml. -/
def serverSettings : List (List Char) := ["ips".toList, "address".toList, "config_dir".toList, "blocklist_dir".toList, "socket_dir".toList, "max_requests_per_second".toList,
  "max_requests_per_second_global".toList, "max_clock_skew_seconds".toList]

/-- The names of the settings that the commander reads from config.toml. -/
def commanderSettings : List (List Char) := ["config_dir".toList, "socket_dir".toList, "socket_user".toList, "socket_group".toList, "allow_non_routable_ips".toList]

/-- One entry of commands.toml: the shell text, or a table with the shell text and perhaps a time limit; default thirty seconds. -/
inductive IsCommand : Toml → (cmd : List Char) → (seconds : Nat) → Prop where
  | plain (s : List Char) : IsCommand (.str s) s 30
  | detailed (l : Table) (cmd : List Char) (n : Nat) (hc : Required l "cmd" IsText cmd) (ht : Defaulted l "timeout_sec" (IsNumber 64) 30 n) : IsCommand (.tbl l) cmd n

/-- commands.toml: a table `commands` with one entry per command. -/
def CommandsFile (t : Table) (entries : Table) : Prop := lookup t "commands" = some (.tbl entries) ∧ ∀ name x, (name, x) ∈ entries → ∃ cmd n, IsCommand x cmd n

end Ruroco.Spec
