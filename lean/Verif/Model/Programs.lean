import Verif.Model.Cli
import Verif.Model.Config

/-!
# The server and the commander as programs: from the command line to the running process

Configuration files are given as the tables they parse to (`Model/Config`). What a program reads from the file system before it changes anything is part of its surroundings.
-/

namespace Ruroco

/-- What surrounds a start of the server. -/
structure ServerEnv where
  /-- the table in the file at a path (`none`: not readable, or not TOML) -/
  table : Path → Option Table
  paths : PathEnv
  /-- the entries of a directory (`none`: not readable) -/
  dir : Path → Option (List DirEntry)
  order : BlMap → BlMap
  socket : SocketEnv
  pid : Nat
  /-- the socket can be had -/
  listens : Listen → Bool
  mono : Nat

/-- `create_from_path` of the three kinds of configuration (/repo/src/server/config.rs:87-92, /repo/src/commander/config.rs:59-64, 147-152). -/
def readTable (table : Path → Option Table) (p : Path) (read : Table → Except Err α) : Except Err α :=
  match table p with
  | none => .error .io
  | some t => read t

/-- The socket of /repo/src/server/listener.rs:50: chosen (`createServerUdpSocket`) and obtained. -/
def ServerEnv.socketOk (e : ServerEnv) (address : Option (List Char)) : Bool :=
  match createServerUdpSocket e.socket e.pid none address with
  | .ok l => e.listens l
  | .error _ => false

/-- listener.rs:36-58 `Server::create_from_path`. -/
def startServer (e : ServerEnv) (p : Path) : Act Server := do
  let c ← Act.ofExcept (readTable e.table p ConfigServer.deserialize)
  Server.create (c.running e.paths) ⟨e.dir (c.keyDir e.paths), e.order, e.socketOk c.address, e.mono⟩

/-- /repo/src/bin/server.rs, listener.rs:134-136 `run_server`, up to the loop. -/
def serverMain (e : ServerEnv) (args : List (List Char)) (w : World) : Except Stop (Out Server) × World :=
  match parseServer args with
  | .error s => (.error s, w)
  | .ok p => (.ok (startServer e p w).1, (startServer e p w).2)

/-- What surrounds a start of the commander. -/
structure CmdrEnv where
  table : Path → Option Table
  paths : PathEnv
  /-- another process holds the lock of the commander -/
  held : Bool
  /-- the user and the group of the socket exist -/
  names : Bool

/-- /repo/src/commander/mod.rs:36-43 `create_from_paths`. -/
def loadCommander (e : CmdrEnv) (hash : List Char → U64) (p q : Path) : Except Err Commander := do
  let c ← readTable e.table p ConfigCommander.deserialize
  let r ← readTable e.table q commandsDeserialize
  pure (Commander.create c r hash e.paths)

/-- `create_from_paths` and mod.rs:60: the commander once its socket exists. -/
def startCommander (e : CmdrEnv) (hash : List Char → U64) (p q : Path) : Act Commander := do
  let k ← Act.ofExcept (loadCommander e hash p q)
  k.createListener e.held e.names
  pure k

/-- /repo/src/bin/commander.rs, /repo/src/commander/exec.rs:181-183 `run_commander`, up to the loop. -/
def commanderMain (e : CmdrEnv) (hash : List Char → U64) (args : List (List Char)) (w : World) : Except Stop (Out Commander) × World :=
  match parseCommander args with
  | .error s => (.error s, w)
  | .ok (p, q) => (.ok (startCommander e hash p q w).1, (startCommander e hash p q w).2)

end Ruroco
