import Verif.Model.Commander
import Verif.Model.IpText
import Verif.Model.Server
import Verif.Model.Socket

/-!
# Configuration files

The `toml` crate is not modelled: a file is given as the table it parses to. A parsed table never has the same key twice (the parser refuses that); this is a
hypothesis of the theorems, not part of the type. Dates are left out of the value type.
-/

namespace Ruroco

/-- A TOML value (without dates). Integers are the 64-bit signed integers of TOML. -/
inductive Toml where
  | str (s : List Char)
  | int (i : Int)
  | float
  | bool (b : Bool)
  | arr (l : List Toml)
  | tbl (l : List (List Char × Toml))

/-- A TOML table, in the order of the file. -/
abbrev Table := List (List Char × Toml)

/-- serde: `String`, `PathBuf`, and these inside an `Option` that is present. -/
def Toml.asStr : Toml → Except Err (List Char)
  | .str s => .ok s
  | _ => .error .parse

/-- serde: `u32` (`bits = 32`) and `u64` (`bits = 64`) from an integer; out of range is an error. -/
def Toml.asUint (bits : Nat) : Toml → Except Err Nat
  | .int i => if 0 ≤ i ∧ i < 2 ^ bits then .ok i.toNat else .error .parse
  | _ => .error .parse

/-- serde: `bool`. -/
def Toml.asBool : Toml → Except Err Bool
  | .bool b => .ok b
  | _ => .error .parse

/-- serde: `Vec<String>`. -/
def Toml.asStrs : Toml → Except Err (List (List Char))
  | .arr l => l.mapM Toml.asStr
  | _ => .error .parse

/-- `s.parse::<IpAddr>()` with the error of config.rs:80. -/
def parseIpText (s : List Char) : Except Err Ip :=
  match parseIp s with
  | some ip => .ok ip
  | none => .error .parse

/-- /repo/src/server/config.rs:73-84 `deserialize_ips`: `s.parse::<IpAddr>()`, then `normalize_ip`. -/
def Toml.asIps (x : Toml) : Except Err (List Ip) := do
  let v ← x.asStrs
  let parsed ← v.mapM parseIpText
  pure (loadIps parsed)

/-- The fill of one field in serde's generated `visit_map`: a second value is `duplicate_field`. -/
def fillField (before : Option α) (conv : Toml → Except Err α) (x : Toml) : Except Err (Option α) :=
  match before with
  | some _ => .error .parse
  | none => (conv x).map some

/-! ## config.toml as the server reads it -/

/-- /repo/src/server/config.rs:25-71 `ConfigServer`. -/
structure ConfigServer where
  ips : List Ip
  address : Option (List Char)
  configDir : Path
  blocklistDir : Option Path
  socketDir : Option Path
  maxPerIp : Nat
  maxGlobal : Nat
  skewSeconds : Nat
deriving DecidableEq

/-- The field identifiers serde generates for `ConfigServer`; unknown keys are ignored. -/
inductive ServerField where
  | ips | address | configDir | blocklistDir | socketDir | maxPerIp | maxGlobal | skewSeconds | ignore
deriving DecidableEq

/-- The field names of config.rs:25-71. -/
def serverField (key : List Char) : ServerField :=
  if key = "ips".toList then .ips
  else if key = "address".toList then .address
  else if key = "config_dir".toList then .configDir
  else if key = "blocklist_dir".toList then .blocklistDir
  else if key = "socket_dir".toList then .socketDir
  else if key = "max_requests_per_second".toList then .maxPerIp
  else if key = "max_requests_per_second_global".toList then .maxGlobal
  else if key = "max_clock_skew_seconds".toList then .skewSeconds
  else .ignore

/-- The local variables of the generated `visit_map`. -/
structure ServerFields where
  ips : Option (List Ip) := none
  address : Option (List Char) := none
  configDir : Option Path := none
  blocklistDir : Option Path := none
  socketDir : Option Path := none
  maxPerIp : Option Nat := none
  maxGlobal : Option Nat := none
  skewSeconds : Option Nat := none

/-- One turn of the loop of the generated `visit_map`. -/
def ServerFields.visit (a : ServerFields) (e : List Char × Toml) : Except Err ServerFields :=
  match serverField e.1 with
  | .ips => (fillField a.ips Toml.asIps e.2).map fun v => { a with ips := v }
  | .address => (fillField a.address Toml.asStr e.2).map fun v => { a with address := v }
  | .configDir => (fillField a.configDir Toml.asStr e.2).map fun v => { a with configDir := v }
  | .blocklistDir => (fillField a.blocklistDir Toml.asStr e.2).map fun v => { a with blocklistDir := v }
  | .socketDir => (fillField a.socketDir Toml.asStr e.2).map fun v => { a with socketDir := v }
  | .maxPerIp => (fillField a.maxPerIp (Toml.asUint 32) e.2).map fun v => { a with maxPerIp := v }
  | .maxGlobal => (fillField a.maxGlobal (Toml.asUint 32) e.2).map fun v => { a with maxGlobal := v }
  | .skewSeconds => (fillField a.skewSeconds (Toml.asUint 64) e.2).map fun v => { a with skewSeconds := v }
  | .ignore => .ok a

/-- config.rs:94-96 `ConfigServer::deserialize` of a parsed file; the defaults are config.rs:118-141. -/
def ConfigServer.deserialize (t : Table) : Except Err ConfigServer := do
  let f ← t.foldlM ServerFields.visit {}
  match f.ips with
  | none => .error .parse
  | some ips => pure { ips, address := f.address, configDir := f.configDir.getD "/etc/ruroco".toList, blocklistDir := f.blocklistDir, socketDir := f.socketDir, maxPerIp := f.maxPerIp.getD 2,
                       maxGlobal := f.maxGlobal.getD 100, skewSeconds := f.skewSeconds.getD 3600 }

/-! ## config.toml as the commander reads it -/

/-- /repo/src/commander/config.rs:37-56 `ConfigCommander`. -/
structure ConfigCommander where
  configDir : Path
  socketDir : Option Path
  socketUser : List Char
  socketGroup : List Char
  allowNonRoutable : Bool
deriving DecidableEq

inductive CommanderField where
  | configDir | socketDir | socketUser | socketGroup | allowNonRoutable | ignore
deriving DecidableEq

/-- The field names of config.rs:37-56. -/
def commanderField (key : List Char) : CommanderField :=
  if key = "config_dir".toList then .configDir
  else if key = "socket_dir".toList then .socketDir
  else if key = "socket_user".toList then .socketUser
  else if key = "socket_group".toList then .socketGroup
  else if key = "allow_non_routable_ips".toList then .allowNonRoutable
  else .ignore

structure CommanderFields where
  configDir : Option Path := none
  socketDir : Option Path := none
  socketUser : Option (List Char) := none
  socketGroup : Option (List Char) := none
  allowNonRoutable : Option Bool := none

/-- One turn of the loop of the generated `visit_map`. -/
def CommanderFields.visit (a : CommanderFields) (e : List Char × Toml) : Except Err CommanderFields :=
  match commanderField e.1 with
  | .configDir => (fillField a.configDir Toml.asStr e.2).map fun v => { a with configDir := v }
  | .socketDir => (fillField a.socketDir Toml.asStr e.2).map fun v => { a with socketDir := v }
  | .socketUser => (fillField a.socketUser Toml.asStr e.2).map fun v => { a with socketUser := v }
  | .socketGroup => (fillField a.socketGroup Toml.asStr e.2).map fun v => { a with socketGroup := v }
  | .allowNonRoutable => (fillField a.allowNonRoutable Toml.asBool e.2).map fun v => { a with allowNonRoutable := v }
  | .ignore => .ok a

/-- config.rs:66-69 `ConfigCommander::deserialize` of a parsed file; the defaults are config.rs:85-95. -/
def ConfigCommander.deserialize (t : Table) : Except Err ConfigCommander := do
  let f ← t.foldlM CommanderFields.visit {}
  pure { configDir := f.configDir.getD "/etc/ruroco".toList, socketDir := f.socketDir, socketUser := f.socketUser.getD "ruroco".toList, socketGroup := f.socketGroup.getD "ruroco".toList,
         allowNonRoutable := f.allowNonRoutable.getD false }

/-! ## commands.toml -/

inductive DetailField where
  | cmd | timeoutSec | ignore
deriving DecidableEq

/-- The field names of /repo/src/commander/config.rs:103-107. -/
def detailField (key : List Char) : DetailField :=
  if key = "cmd".toList then .cmd
  else if key = "timeout_sec".toList then .timeoutSec
  else .ignore

structure DetailFields where
  cmd : Option (List Char) := none
  timeoutSec : Option Nat := none

def DetailFields.visit (a : DetailFields) (e : List Char × Toml) : Except Err DetailFields :=
  match detailField e.1 with
  | .cmd => (fillField a.cmd Toml.asStr e.2).map fun v => { a with cmd := v }
  | .timeoutSec => (fillField a.timeoutSec (Toml.asUint 64) e.2).map fun v => { a with timeoutSec := v }
  | .ignore => .ok a

/-- /repo/src/commander/config.rs:99-108 `CommandValue`: untagged, so a string is `Plain`, a table `Detailed` (an untagged struct variant accepts only tables), and anything else matches
neither. -/
def Toml.asCommand : Toml → Except Err CommandValue
  | .str s => .ok (.plain s)
  | .tbl l => do
    let f ← l.foldlM DetailFields.visit {}
    match f.cmd with
    | none => .error .parse
    | some cmd => pure (.detailed cmd (f.timeoutSec.map (BitVec.ofNat 64)))
  | _ => .error .parse

/-- One entry of the map. -/
def readCommand (e : List Char × Toml) : Except Err (List Char × CommandValue) := e.2.asCommand.map (fun v => (e.1, v))

/-- serde: `HashMap<String, CommandValue>`, as the list of its entries. -/
def Toml.asCommands : Toml → Except Err (List (List Char × CommandValue))
  | .tbl l => l.mapM readCommand
  | _ => .error .parse

/-- The fill of `ConfigCommands`: its only field is `commands`. -/
def visitCommands (a : Option (List (List Char × CommandValue))) (e : List Char × Toml) : Except Err (Option (List (List Char × CommandValue))) :=
  if e.1 = "commands".toList then fillField a Toml.asCommands e.2 else .ok a

/-- config.rs:155-158 `ConfigCommands::deserialize` of a parsed file; `commands` has no default. -/
def commandsDeserialize (t : Table) : Except Err (List (List Char × CommandValue)) := do
  match ← t.foldlM visitCommands none with
  | none => .error .parse
  | some c => pure c

/-! ## Paths -/

/-- What `env::current_dir` and `fs::canonicalize` answer when a path is resolved. -/
structure PathEnv where
  cwd : Option Path
  canon : Path → Option Path

/-- `Path::is_absolute` -/
def isAbsolute (p : Path) : Bool := p.head? == some '/'

/-- `PathBuf::push` -/
def pathPush (base rel : Path) : Path :=
  if isAbsolute rel then rel
  else if base = [] ∨ base.getLast? = some '/' then base ++ rel
  else base ++ '/' :: rel

/-- /repo/src/common/fs.rs:61-81 `resolve_path` -/
def resolvePath (env : PathEnv) (p : Path) : Path :=
  if isAbsolute p then p
  else match env.cwd with
    | none => p
    | some c => (env.canon (pathPush c p)).getD (pathPush c p)

/-- /repo/src/common/ipc.rs:44-46 `get_commander_unix_socket_path` -/
def commanderSocketPath (env : PathEnv) (dir : Path) : Path := pathPush (resolvePath env dir) "ruroco.socket".toList

/-- /repo/src/server/keys.rs:45-50 -/
def ConfigServer.socketPath (c : ConfigServer) (env : PathEnv) : Path := commanderSocketPath env (c.socketDir.getD c.configDir)

/-- keys.rs:52-54 `resolve_config_dir` -/
def ConfigServer.keyDir (c : ConfigServer) (env : PathEnv) : Path := resolvePath env c.configDir

/-- keys.rs:16-20 and /repo/src/server/blocklist.rs:51-53: the directory of the replay state, resolved. -/
def ConfigServer.stateDir (c : ConfigServer) (env : PathEnv) : Path := resolvePath env (c.blocklistDir.getD c.configDir)

/-- The settings the running server works with (`Model/Server`). -/
def ConfigServer.running (c : ConfigServer) (env : PathEnv) : ServerCfg :=
  { ips := c.ips, maxPerIp := c.maxPerIp, maxGlobal := c.maxGlobal, skewSeconds := BitVec.ofNat 64 c.skewSeconds, blDir := c.stateDir env }

/-- /repo/src/commander/mod.rs:48-58 `Commander::create`. -/
def Commander.create (c : ConfigCommander) (commands : List (List Char × CommandValue)) (hash : List Char → U64) (env : PathEnv) : Commander :=
  { socketPath := commanderSocketPath env (c.socketDir.getD c.configDir), cmds := getHashToCmd hash commands, socketUser := c.socketUser, socketGroup := c.socketGroup,
    allowNonRoutable := c.allowNonRoutable }

end Ruroco
