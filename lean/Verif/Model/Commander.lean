import Verif.Model.Sys
import Verif.Model.IpFilter
import Verif.Model.RateLimiter
import Verif.Model.Crypto

/-!
# The commander
-/

namespace Ruroco

/-! ## Command table (/repo/src/commander/config.rs) -/

/-- config.rs:21 -/
def DEFAULT_TIMEOUT_SECS : Nat := 30

/-- config.rs:99-108 `CommandValue`; `Detailed` without `timeout_sec` has the default (config.rs:126-128). -/
inductive CommandValue where
  | plain (cmd : List Char)
  | detailed (cmd : List Char) (timeoutSec : Option U64)
deriving DecidableEq, Repr

/-- config.rs:111-116 -/
def CommandValue.cmd : CommandValue → List Char
  | .plain cmd => cmd
  | .detailed cmd _ => cmd

/-- config.rs:118-123, in seconds. -/
def CommandValue.timeout : CommandValue → Nat
  | .plain _ => DEFAULT_TIMEOUT_SECS
  | .detailed _ none => DEFAULT_TIMEOUT_SECS
  | .detailed _ (some t) => t.toNat

/-- config.rs:132-135 `CommandSpec`. -/
structure CommandSpec where
  cmd : List Char
  timeout : Nat
deriving DecidableEq, Repr

/-- `HashMap<u64, CommandSpec>`: the entry inserted last for a key is at the front and wins. -/
abbrev CommandMap := List (U64 × CommandSpec)

/-- `HashMap::get`. -/
def CommandMap.get (m : CommandMap) (h : U64) : Option CommandSpec := (m.find? (fun e => e.1 == h)).map (·.2)

/-- config.rs:168-182 `get_hash_to_cmd`. The `HashMap<String, CommandValue>` of the configuration is listed in the arbitrary order of its
iteration; `collect` inserts in that order. `hash` stands for `blake2b_u64` of the name; its error paths (an impossible output size) are left out. -/
def getHashToCmd (hash : List Char → U64) (commands : List (List Char × CommandValue)) : CommandMap :=
  commands.foldl (fun m e => (hash e.1, ⟨e.2.cmd, e.2.timeout⟩) :: m) []

/-- /repo/src/commander/mod.rs:27-33 `Commander`. -/
structure Commander where
  socketPath : Path
  cmds : CommandMap
  socketUser : List Char
  socketGroup : List Char
  allowNonRoutable : Bool

/-! ## Running a command (/repo/src/commander/exec.rs) -/

/-- exec.rs:22-25 `CommandExit`; of the exit status only `success()` matters. -/
inductive CommandExit where
  | completed (success : Bool)
  | timedOut
deriving DecidableEq, Repr

/-- exec.rs:19 `POLL_INTERVAL`, nanoseconds. -/
def POLL_INTERVAL : Nat := 50000000

/-- One turn of the polling loop as the environment decides it: the instant at which `try_wait` looks at the child, the instant
`Instant::now` then returns, and which calls fail. -/
structure Round where
  waitAt : Nat
  now : Nat
  waitFails : Bool
  killFails : Bool
  reapFails : Bool
deriving DecidableEq, Repr

/-- Behaviour of the operating system and the child for one execution. `exit`: when and how the child ends if it is not killed. `effect`: what the
child does to the file system (among others, to its two output files). -/
structure ChildEnv where
  startAt : Nat
  exit : Option (Nat × Bool)
  rounds : List Round
  effect : (Path → Option File) → (Path → Option File)

/-- `Instant::checked_add` of a whole number of seconds: seconds are an `i64`. -/
def deadlineOf (startAt timeout : Nat) : Option Nat :=
  if startAt / SECOND + timeout < 2 ^ 63 then some (startAt + timeout * SECOND) else none

inductive Polled where
  | completed (success : Bool)
  /-- killed at this instant and reaped -/
  | timedOut (at_ : Nat)
  /-- `try_wait`, `kill` or `wait` failed -/
  | waitFailed | killFailed (at_ : Nat) | reapFailed (at_ : Nat)
  /-- no more turns: still polling when the observation ends -/
  | waiting
deriving DecidableEq, Repr

/-- The child has ended by itself at instant `t`. -/
def exitedBy (exit : Option (Nat × Bool)) (t : Nat) : Option Bool :=
  match exit with
  | some (e, s) => if e ≤ t then some s else none
  | none => none

/-- exec.rs:145-157, the polling loop. -/
def pollLoop (exit : Option (Nat × Bool)) (deadline : Option Nat) : List Round → Polled
  | [] => .waiting
  | r :: rest =>
    if r.waitFails then .waitFailed
    else match exitedBy exit r.waitAt with
      | some s => .completed s
      | none =>
        if deadline.any (fun d => decide (d ≤ r.now)) then
          if r.killFails then .killFailed r.now
          else if r.reapFails then .reapFailed r.now
          else .timedOut r.now
        else pollLoop exit deadline rest

/-- exec.rs:161-167 `temp_output_path`: `ruroco-cmd-<pid>-<nanos>-<kind>` in the directory `tmp` (given with its final `/`, with the process id). -/
def tempOutputPath (tmpPrefix : Path) (kind : List Char) : Act Path := do
  let nanos ← nowNanos
  pure (tmpPrefix ++ (toString nanos.toNat).toList ++ '-' :: kind)

/-- End of the world as far as this observation goes (the loop is still polling). -/
def stopHere : Act α := fun w => (.crash, w)

/-- Result of the polling loop as events and return value. -/
def Polled.act : Polled → Act CommandExit
  | .completed s => pure (.completed s)
  | .timedOut _ => do
    note .kill
    note .reap
    pure .timedOut
  | .waitFailed => Act.throw .io
  | .killFailed _ => Act.throw .io
  | .reapFailed _ => do
    note .kill
    Act.throw .io
  | .waiting => stopHere

/-- exec.rs:120-158 `spawn_and_wait`. -/
def spawnAndWait (cmd : List Char) (timeout : Nat) (ip : Ip) (out err : Path) (env : ChildEnv) : Act CommandExit := do
  openTrunc out
  openTrunc err
  atomicCall (.spawn cmd ip) (fun w => { w with fs := env.effect w.fs })
  (pollLoop env.exit (deadlineOf env.startAt timeout) env.rounds).act

/-- `read_to_string(..).unwrap_or_default()`. -/
def readOrEmpty (p : Path) : Act (List Byte) := do
  match ← (readFile p).attempt with
  | .ok d => pure d
  | .error _ => pure []

/-- exec.rs:101-118 `execute_with_timeout`. -/
def executeWithTimeout (tmpPrefix : Path) (cmd : List Char) (timeout : Nat) (ip : Ip) (env : ChildEnv) :
    Act (CommandExit × List Byte × List Byte) := do
  let out ← tempOutputPath tmpPrefix "out".toList
  let err ← tempOutputPath tmpPrefix "err".toList
  let result ← (spawnAndWait cmd timeout ip out err env).attempt
  let stdout ← readOrEmpty out
  let stderr ← readOrEmpty err
  removeIgnoring out
  removeIgnoring err
  let exit ← Act.ofExcept result
  pure (exit, stdout, stderr)

/-- exec.rs:79-99 `run_command`, with `is_ip_allowed` (172-178). It logs and returns nothing; here it returns what it logs about: `none` for a
refused address, otherwise the result of the execution. -/
def Commander.runCommand (c : Commander) (tmpPrefix : Path) (cmd : List Char) (timeout : Nat) (ip : Ip) (env : ChildEnv) :
    Act (Option (Except Err (CommandExit × List Byte × List Byte))) := do
  if !c.allowNonRoutable && !isRoutable ip then pure none
  else do
    let r ← (executeWithTimeout tmpPrefix cmd timeout ip env).attempt
    pure (some r)

/-! ## Serving (/repo/src/commander/mod.rs) -/

/-- What `accept` returns and what then can be read from the stream before it is closed or its one-second timeout expires. -/
inductive Conn where
  | acceptFailed
  | stream (timeoutFails : Bool) (bytes : List Byte) (env : ChildEnv)

/-- mod.rs:89-95 `read`: `read_exact` of 24 bytes; more bytes are left unread. -/
def Commander.read (bytes : List Byte) : Except Err (List Byte) :=
  if bytes.length < CMDR_DATA_SIZE then .error .io else .ok (bytes.take CMDR_DATA_SIZE)

/-- mod.rs:73-87 `run_cycle`. -/
def Commander.runCycle (c : Commander) (tmpPrefix : Path) (timeoutFails : Bool) (bytes : List Byte) (env : ChildEnv) :
    Act (Option (Except Err (CommandExit × List Byte × List Byte))) := do
  if timeoutFails then Act.throw .io
  else do
    let msg ← Act.ofExcept (Commander.read bytes)
    let d := CommanderData.ofBytes msg
    match c.cmds.get d.cmdHash with
    | none => Act.throw .unknownCommand
    | some spec => c.runCommand tmpPrefix spec.cmd spec.timeout d.ip env

/-- mod.rs:59-68, the loop of `run`; errors are logged only. `incoming()` never ends: an exhausted list is the end of the observation. -/
def Commander.serve (c : Commander) (tmpPrefix : Path) : List Conn → Act Unit
  | [] => pure ()
  | .acceptFailed :: rest => c.serve tmpPrefix rest
  | .stream tf bytes env :: rest => do
    let _ ← (c.runCycle tmpPrefix tf bytes env).attempt
    c.serve tmpPrefix rest

/-! ## Start-up (/repo/src/commander/exec.rs:32-73) -/

/-- `umask(2)`: sets the mask, returns the previous one, never fails. -/
def setUmask (m : Nat) : Act Nat := fun w => (.ok w.umask, { w with umask := m })

/-- `UnixListener::bind`: fails if the path exists, else creates the socket file with `0o777 & !umask`. -/
def bindUnix (p : Path) : Act Unit := do
  match ← peek p with
  | some _ => Act.throw .io
  | none => atomicCall (.file .bind p) (fun w => w.setEntry p (some ⟨[], 0o777 - (0o777 &&& w.umask), false, .creator⟩))

/-- Creates the file if it does not exist (`create(true).truncate(false)`). -/
def openCreate (p : Path) : Act Unit :=
  atomicCall (.file .openTrunc p) fun w =>
    match w.fs p with
    | some _ => w
    | none => w.setEntry p (some ⟨[], w.newMode, false, .creator⟩)

/-- /repo/src/common/instance_lock.rs:19-31 `InstanceLock::acquire`; `held`: another process holds the lock. -/
def acquireLock (p : Path) (held : Bool) : Act Unit := do
  openCreate p
  atomicCall (.file .lock p) id
  if held then Act.throw .locked else pure ()

/-- The owner after `chown(2)`: an empty name leaves that part as it is. -/
def Owner.change (o : Owner) (user group : List Char) : Owner := ⟨if user = [] then o.user else user, if group = [] then o.group else group⟩

/-- `chown(2)`; fails if the file does not exist. -/
def chown (p : Path) (user group : List Char) : Act Unit := do
  match ← peek p with
  | none => Act.throw .notFound
  | some f => atomicCall (.file .chown p) (fun w => w.setFile p (some { f with owner := f.owner.change user group }))

/-- /repo/src/common/fs.rs:83-104 `change_file_ownership`; `names`: the (non-empty) user and group names resolve. -/
def changeOwnership (p : Path) (user group : List Char) (names : Bool) : Act Unit := do
  if !names then Act.throw .io
  else chown p user group

/-- `Path::parent`. -/
def parent (p : Path) : Option Path := if p = [] ∨ p = ['/'] then none else some (dirname p)

/-- exec.rs:32-73 `create_listener`, `change_socket_ownership`. -/
def Commander.createListener (c : Commander) (held names : Bool) : Act Unit := do
  match parent c.socketPath with
  | none => Act.throw .io
  | some dir => do
    atomicCall (.file .mkdir dir) id
    acquireLock (dir ++ "commander.lock".toList) held
    removeIgnoring c.socketPath
    let previous ← setUmask 0o077
    let bound ← (bindUnix c.socketPath).attempt
    let _ ← setUmask previous
    Act.ofExcept bound
    chmod c.socketPath 0o204
    changeOwnership c.socketPath (trim c.socketUser) (trim c.socketGroup) names

end Ruroco
