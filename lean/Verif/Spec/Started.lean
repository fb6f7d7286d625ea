import Verif.Spec.Gate
import Verif.Spec.Setup

/-!
# Specification: what a started program was told

What the files, the command line and the environment tell the two services, and what it means that a running one works with that.
-/

namespace Ruroco.Spec

/-- What the server has to listen on: the address in `LISTEN_ADDRESS`; without it, the socket that systemd passes (descriptor 3) if systemd says it passes one; else the configured address; else
`[::]:34020`. -/
inductive ListensOn (env : SocketEnv) (pid : Nat) (configured : Option (List Char)) : Listen → Prop where
  | environment (a : List Char) (h : env.listenAddress = some a) : ListensOn env pid configured (.bind a)
  | passed (h : env.listenAddress = none) (hp : env.listenPid = some (toString pid).toList) (hn : env.listenFds = some ['1']) : ListensOn env pid configured (.fd 3)
  | config (a : List Char) (h : env.listenAddress = none) (hs : env.listenPid = none ∨ env.listenFds = none) (hc : configured = some a) : ListensOn env pid configured (.bind a)
  | default (h : env.listenAddress = none) (hs : env.listenPid = none ∨ env.listenFds = none) (hc : configured = none) : ListensOn env pid configured (.bind "[::]:34020".toList)

/-- The command line of the server names a file (or none: then /etc/ruroco/config.toml) that can be read and has exactly the settings `c`, whose key directory holds exactly the keys `keys`. -/
def ServerTold (e : ServerEnv) (args : List (List Char)) (c : ConfigServer) (keys : List CryptoHandler) : Prop :=
  ∃ g p t, Says serverOpts args g ∧ PathMeans g "config" "/etc/ruroco/config.toml" p ∧ e.table p = some t ∧ ServerSettings t c ∧ LoadsKeys (e.dir (resolvePath e.paths c.configDir)) keys

/-- The running server `s` works with these settings and keys, and has not yet counted any request. -/
structure ServerWorksWith (e : ServerEnv) (c : ConfigServer) (keys : List CryptoHandler) (s : Server) : Prop where
  ips : s.cfg.ips = c.ips
  perIp : s.cfg.maxPerIp = c.maxPerIp
  inAll : s.cfg.maxGlobal = c.maxGlobal
  skew : s.cfg.skewSeconds.toNat = c.skewSeconds
  state : s.cfg.blDir = resolvePath e.paths (c.blocklistDir.getD c.configDir)
  keys : s.handlers = keys.map (fun k => (k.id, k))
  limit : s.rl = RateLimiter.new e.mono

/-- The command line of the commander names two files (or the default ones) that can be read: the first has exactly the settings `c`, the second lists exactly the commands `entries`. -/
def CommanderTold (e : CmdrEnv) (args : List (List Char)) (c : ConfigCommander) (entries : Table) : Prop :=
  ∃ g p q t commands, Says commanderOpts args g ∧ PathMeans g "config" "/etc/ruroco/config.toml" p ∧ PathMeans g "commands" "/etc/ruroco/commands.toml" q ∧ e.table p = some t ∧
    e.table q = some commands ∧ CommanderSettings t c ∧ CommandsFile commands entries

/-- The running commander `k` works with these settings and commands. -/
structure CommanderWorksWith (e : CmdrEnv) (hash : List Char → U64) (c : ConfigCommander) (entries : Table) (k : Commander) : Prop where
  socket : k.socketPath = pathPush (resolvePath e.paths (c.socketDir.getD c.configDir)) "ruroco.socket".toList
  user : k.socketUser = c.socketUser
  group : k.socketGroup = c.socketGroup
  addresses : k.allowNonRoutable = c.allowNonRoutable
  only : ∀ h spec, k.cmds.get h = some spec → ∃ name x, (name, x) ∈ entries ∧ hash name = h ∧ IsCommand x spec.cmd spec.timeout
  all : (∀ x ∈ entries, ∀ y ∈ entries, hash x.1 = hash y.1 → x.1 = y.1) → ∀ name x cmd n, (name, x) ∈ entries → IsCommand x cmd n → k.cmds.get (hash name) = some ⟨cmd, n⟩

/-- TOML has no table with a key twice. -/
def TomlFiles (table : Path → Option Table) : Prop :=
  ∀ p t, table p = some t → DistinctKeys t ∧ ∀ entries, lookup t "commands" = some (.tbl entries) → DistinctKeys entries ∧ ∀ name l, (name, Toml.tbl l) ∈ entries → DistinctKeys l

end Ruroco.Spec
