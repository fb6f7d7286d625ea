import Verif.Model.Commander

/-!
# Processes sharing a lock file (/repo/src/common/instance_lock.rs, /repo/src/client/lock.rs)

Any number of processes of one kind (commanders with one socket directory, or clients and UIs with one configuration directory), interleaved at the
granularity of system calls. The kernel's side of `flock(2)` is the field `holder`: an exclusive non-blocking request is granted exactly if nobody
holds the lock, and closing the file — by leaving the scope of the guard, by exiting, or by dying in any way — releases it. Child processes do not keep
the file open (Rust opens with `O_CLOEXEC`), and nobody removes the lock file (the program never does), so there is one lock.
-/

namespace Ruroco.Locks

/-- How far a process is. -/
inductive Pc where
  | absent
  /-- the lock file is open (instance_lock.rs:20-25) -/
  | opened
  /-- `flock` succeeded (instance_lock.rs:27-28): inside the guarded part -/
  | locked
  /-- commander: old socket removed, or removal failed (exec.rs:43) -/
  | cleared
  /-- commander: bound and serving (exec.rs:57-69, mod.rs:59-68) -/
  | serving
deriving DecidableEq, Repr

structure Sys where
  pc : Nat → Pc
  holder : Option Nat
  /-- the process that created the file now at the socket path -/
  socket : Option Nat
  /-- ghost: number of guarded parts entered so far, and the number of the one each process is or was in -/
  count : Nat
  session : Nat → Nat
  /-- ghost: the steps done inside guarded parts, as (process, guarded part) -/
  trace : List (Nat × Nat)

/-- A scheduler decision. -/
inductive Action where
  /-- process `p` starts and opens the lock file -/
  | start (p : Nat)
  | tryLock (p : Nat)
  /-- any step inside the guarded part: reading or writing the counter, sending, serving a connection -/
  | work (p : Nat)
  /-- `let _ = fs::remove_file(socket)` -/
  | unlink (p : Nat) (fails : Bool)
  | bind (p : Nat)
  /-- process `p` ends: returns, fails, panics, or is killed -/
  | die (p : Nat)
deriving DecidableEq, Repr

def setPc (s : Sys) (p : Nat) (c : Pc) : Sys := { s with pc := fun q => if q = p then c else s.pc q }

/-- The process ends; the kernel closes its files. The socket file stays. -/
def end_ (s : Sys) (p : Nat) : Sys :=
  { setPc s p .absent with holder := if s.holder = some p then none else s.holder }

def inside : Pc → Bool
  | .locked | .cleared | .serving => true
  | .absent | .opened => false

/-- One step; a decision that does not apply changes nothing. -/
def step (s : Sys) : Action → Sys
  | .start p => if s.pc p = .absent then setPc s p .opened else s
  | .tryLock p =>
    if s.pc p = .opened then
      match s.holder with
      | none => { setPc s p .locked with holder := some p, count := s.count + 1, session := fun q => if q = p then s.count + 1 else s.session q }
      | some _ => end_ s p
    else s
  | .work p => if inside (s.pc p) then { s with trace := s.trace ++ [(p, s.session p)] } else s
  | .unlink p fails =>
    if s.pc p = .locked then
      { setPc s p .cleared with socket := if fails then s.socket else none, trace := s.trace ++ [(p, s.session p)] }
    else s
  | .bind p =>
    if s.pc p = .cleared then
      match s.socket with
      | none => { setPc s p .serving with socket := some p, trace := s.trace ++ [(p, s.session p)] }
      | some _ => end_ s p
    else s
  | .die p => end_ s p

def run (s : Sys) : List Action → Sys
  | [] => s
  | a :: rest => run (step s a) rest

/-- Nobody runs; a socket file may have been left behind. -/
def init (stale : Option Nat) : Sys := ⟨fun _ => .absent, none, stale, 0, fun _ => 0, []⟩

end Ruroco.Locks
