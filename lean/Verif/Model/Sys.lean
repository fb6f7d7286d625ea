import Verif.Model.Protocol

/-!
# Operating system: file system, clock, failures, crashes

Every system call consumes one `Choice` of the oracle: it works, it fails (possibly after partial progress), or the process
dies there (before, during or after the effect). An exhausted oracle means "works". Theorems quantify over all oracles, hence
over every combination of failing calls and every crash point.

Two views of a file are kept: `fs` is what running processes (and later processes, if the machine stays up) see; `pend` lists,
per path, the directory entries that a power loss may bring back because the directory has not been fsynced since.
-/

namespace Ruroco

abbrev Path := List Char

/-- Owner of a file: user and group name given by `chown`; empty = that of the process that created the file. -/
structure Owner where
  user : List Char
  group : List Char
deriving DecidableEq, Repr

def Owner.creator : Owner := ⟨[], []⟩

/-- A regular file. `synced`: its data reached the disk (`fsync`); after a power loss the data of an unsynced file is
arbitrary. -/
structure File where
  data : List Byte
  mode : Nat
  synced : Bool
  owner : Owner
deriving DecidableEq, Repr

/-- Outcome of one system call. For `write`, `k` is the number of bytes written before the failure or crash; for the other calls
`crash 0` is a crash before the effect, `crash (k+1)` after it, and a failing call has no effect. -/
inductive Choice where
  | ok
  | err (k : Nat)
  | crash (k : Nat)
deriving DecidableEq, Repr

inductive FileOp where
  | openTrunc | write | fsync | stat | chmod | rename | fsyncDir | read | copy | remove | mkdir | lock | bind | chown
deriving DecidableEq, Repr

/-- Trace of externally visible actions, in order. -/
inductive Event where
  /-- a system call on a file was attempted -/
  | file (op : FileOp) (p : Path)
  /-- `stat` of an existing or absent file failed for another reason than absence -/
  | statFailed (p : Path)
  /-- the best-effort fsync of the directory of `p` failed -/
  | dirSyncFailed (p : Path)
  /-- server: connection attempt to the commander socket -/
  | connect
  /-- server: `bytes` were written to the commander socket. `dg` (the datagram being processed), and `counter` (its counter)
  are ghost annotations. -/
  | forward (dg : List Byte) (counter : U128) (bytes : List Byte)
  /-- commander: `sh -c cmd` was started with `RUROCO_IP` set to `ip` -/
  | spawn (cmd : List Char) (ip : Ip)
  /-- commander: the running command was sent SIGKILL / waited for -/
  | kill
  | reap
  /-- removing a file failed, which the program ignores -/
  | removeFailed (p : Path)
  /-- updater: backing up / rolling back the binary at `p` failed; the second is only logged by the program -/
  | copyFailed (p : Path)
  | rollbackFailed (p : Path)
  /-- client: an attempt to reach this destination begins / has failed and is reported -/
  | sendTo (ip : Ip) (port : Nat)
  | sendFailed (ip : Ip) (port : Nat)
  /-- client: waiting for so many milliseconds -/
  | sleep (ms : Nat)
  /-- client: a UDP socket is bound / connected -/
  | udpSocket
  /-- client: `send` of a UDP datagram was called (it may or may not have left). `counter` is a ghost annotation. -/
  | udp (ip : Ip) (port : Nat) (counter : U128) (bytes : List Byte)
  /-- wizard: another program was started with these arguments (it may or may not have succeeded) -/
  | program (argv : List (List Char))
deriving DecidableEq, Repr

structure World where
  fs : Path → Option File
  pend : Path → List (Option File)
  /-- readings of the wall clock in nanoseconds since the epoch, one per call; `none` = before the epoch -/
  clock : List (Option U128)
  oracle : List Choice
  umask : Nat
  /-- ghost: datagram being processed -/
  cur : List Byte
  log : List Event

/-- Result of an action: value, error, or death of the process. -/
inductive Out (α : Type) where
  | ok (a : α)
  | err (e : Err)
  | crash
deriving DecidableEq, Repr

/-- Actions: Rust functions with system calls returning `anyhow::Result`. The world is kept on every outcome. -/
def Act (α : Type) := World → Out α × World

namespace Act

def pure (a : α) : Act α := fun w => (.ok a, w)

/-- Sequencing; the `?` operator. -/
def bind (m : Act α) (f : α → Act β) : Act β := fun w =>
  match m w with
  | (.ok a, w') => f a w'
  | (.err e, w') => (.err e, w')
  | (.crash, w') => (.crash, w')

instance : Monad Act where
  pure := pure
  bind := bind

def throw (e : Err) : Act α := fun w => (.err e, w)

/-- Observing a `Result` instead of propagating it. A crash can not be observed. -/
def attempt (m : Act α) : Act (Except Err α) := fun w =>
  match m w with
  | (.ok a, w') => (.ok (.ok a), w')
  | (.err e, w') => (.ok (.error e), w')
  | (.crash, w') => (.crash, w')

def ofExcept : Except Err α → Act α
  | .ok a => pure a
  | .error e => throw e

end Act

/-- One system call: `ev` is logged, `eff` is its effect, `part k` its effect when it stops after progress `k`. -/
def syscall (ev : Event) (eff : World → World) (onErr : Nat → World → World) (onCrash : Nat → World → World) : Act Unit :=
  fun w0 =>
    let w := { w0 with log := w0.log ++ [ev] }
    match w.oracle with
    | [] => (.ok (), eff w)
    | .ok :: o => (.ok (), eff { w with oracle := o })
    | .err k :: o => (.err .io, onErr k { w with oracle := o })
    | .crash k :: o => (.crash, onCrash k { w with oracle := o })

/-- A call that either happens completely or not at all. -/
def atomicCall (ev : Event) (eff : World → World) : Act Unit :=
  syscall ev eff (fun _ w => w) (fun k w => if k = 0 then w else eff w)

def World.setFile (w : World) (p : Path) (f : Option File) : World :=
  { w with fs := fun q => if q = p then f else w.fs q }

/-- The directory entry `p` changes; the previous entry may come back after a power loss until the directory is fsynced. -/
def World.setEntry (w : World) (p : Path) (f : Option File) : World :=
  { w with fs := fun q => if q = p then f else w.fs q
           pend := fun q => if q = p then w.fs p :: w.pend p else w.pend q }

/-- `0o666 & !umask`, mode of newly created files. -/
def World.newMode (w : World) : Nat := 0o666 - (0o666 &&& w.umask)

/-- `OpenOptions::new().create(true).write(true).truncate(true).open(p)` (also `File::create`). An existing file keeps its
mode and owner. -/
def openTrunc (p : Path) : Act Unit :=
  atomicCall (.file .openTrunc p) fun w =>
    w.setEntry p (some ⟨[], (match w.fs p with | some f => f.mode | none => w.newMode), false, (match w.fs p with | some f => f.owner | none => .creator)⟩)

def World.append (w : World) (p : Path) (bs : List Byte) : World :=
  match w.fs p with
  | some f => w.setFile p (some { f with data := f.data ++ bs, synced := false })
  | none => w

/-- `write_all` on the handle just opened on `p`. -/
def writeAll (p : Path) (bs : List Byte) : Act Unit :=
  syscall (.file .write p) (fun w => w.append p bs) (fun k w => w.append p (bs.take k)) (fun k w => w.append p (bs.take k))

/-- `File::sync_all`. -/
def fsync (p : Path) : Act Unit :=
  atomicCall (.file .fsync p) fun w =>
    match w.fs p with
    | some f => w.setFile p (some { f with synced := true })
    | none => w

/-- Look at an entry without a system call (used to define the calls below). -/
def peek (p : Path) : Act (Option File) := fun w => (.ok (w.fs p), w)

/-- Record something in the trace. -/
def note (ev : Event) : Act Unit := fun w => (.ok (), { w with log := w.log ++ [ev] })

/-- `fs::set_permissions`; fails if the file does not exist. -/
def chmod (p : Path) (mode : Nat) : Act Unit := do
  match ← peek p with
  | none => Act.throw .notFound
  | some f => atomicCall (.file .chmod p) (fun w => w.setFile p (some { f with mode }))

/-- `fs::metadata`: fails if absent, or by the oracle. -/
def stat (p : Path) : Act File := do
  atomicCall (.file .stat p) id
  match ← peek p with
  | some f => pure f
  | none => Act.throw .notFound

/-- `fs::rename` within one file system (atomic); fails if the source does not exist. -/
def rename (a b : Path) : Act Unit := do
  match ← peek a with
  | none => Act.throw .notFound
  | some f => atomicCall (.file .rename b) (fun w => (w.setEntry b (some f)).setEntry a none)

/-- Directory part including the final `/`; empty if there is none. -/
def dirname (p : Path) : Path := (p.reverse.dropWhile (· ≠ '/')).reverse

/-- Best-effort fsync of the directory of `p` (/repo/src/common/fs.rs:52-57): opening `""` always fails; failures of `open` or
`sync_all` (one oracle choice for both) are ignored by the program and recorded in the log here. -/
def fsyncDir (p : Path) : Act Unit := do
  if dirname p = [] then note (.dirSyncFailed p)
  else
    match ← (atomicCall (.file .fsyncDir p)
        (fun w => { w with pend := fun q => if dirname q = dirname p then [] else w.pend q })).attempt with
    | .ok () => pure ()
    | .error _ => note (.dirSyncFailed p)

/-- `Path::exists`: `false` if absent **and also on any stat error** (recorded in the log). -/
def pathExists (p : Path) : Act Bool := do
  match ← (atomicCall (.file .stat p) id).attempt with
  | .ok () => do
    let f ← peek p
    pure f.isSome
  | .error _ => do
    note (.statFailed p)
    pure false

/-- `fs::read`: `NotFound` exactly when absent, other errors by the oracle. -/
def readFile (p : Path) : Act (List Byte) := do
  atomicCall (.file .read p) id
  match ← peek p with
  | some f => pure f.data
  | none => Act.throw .notFound

/-- `fs::remove_file`; fails if absent. -/
def removeFile (p : Path) : Act Unit := do
  match ← peek p with
  | none => Act.throw .notFound
  | some _ => atomicCall (.file .remove p) (fun w => w.setEntry p none)

/-- `let _ = fs::remove_file(p)`: a failure is ignored; it is recorded in the log here if the file is still there. -/
def removeIgnoring (p : Path) : Act Unit := do
  match ← (removeFile p).attempt with
  | .ok () => pure ()
  | .error .notFound => pure ()
  | .error _ => note (.removeFailed p)

/-- /repo/src/common/mod.rs:53-59 `now_nanos`. An exhausted clock list counts as "before the epoch". -/
def nowNanos : Act U128 := fun w =>
  match w.clock with
  | some t :: c => (.ok t, { w with clock := c })
  | none :: c => (.err .clock, { w with clock := c })
  | [] => (.err .clock, w)

/-- Name of the temporary file, /repo/src/common/fs.rs:24-26. -/
def tmpPath (path : Path) (nanos : U128) : Path := path ++ ('.' :: (toString nanos.toNat).toList ++ ".tmp".toList)

/-- /repo/src/common/fs.rs:19-59 `write_atomic_with_mode`. -/
def writeAtomicWithMode (path : Path) (contents : List Byte) (mode : Option Nat) : Act Unit := do
  let nanos ← nowNanos
  let tmp := tmpPath path nanos
  openTrunc tmp
  writeAll tmp contents
  fsync tmp
  match mode with
  | some m => do
    let _ ← stat tmp
    chmod tmp m
  | none => pure ()
  rename tmp path
  fsyncDir path

/-- fs.rs:14-16 `write_atomic`. -/
def writeAtomic (path : Path) (contents : List Byte) : Act Unit := writeAtomicWithMode path contents none

end Ruroco
