import Verif.Model.ClientHistory
import Verif.Spec.AtOnce

/-!
# Several clients at the same time

Any number of client processes of one user (command line clients, graphical clients) run at the same time, interleaved system call by system call, together with other programs, and power losses.
The histories of `Model/ClientHistory` have one event after the other; here nothing is assumed about the order except what the kernel's `flock(2)` guarantees.

A program is a tree of indivisible steps, each with at most one system call or one look at the clock. `Act` does not show its steps; the theorems are about every way of cutting the client's
functions into such steps (`IsCode`), and there is one (`C113_cut`).

Simplifications. The outcomes of system calls and the readings of the clock are chosen by the scheduler. A process that is killed, or cut off by a power loss, while it works on a job dies in its next system call
(`Choice.crash`), before or after the effect. A second lock file, or a removed one, does not occur (the program never removes it). What happens before the lock file is opened (parsing of
the command line, the configuration directory) touches nothing that is shared.
-/

namespace Ruroco.AtOnce

open Ruroco.Spec.AtOnce

/-- A program as a tree: it is finished, or makes the step `m`, for which the system chooses the outcomes of `a` system calls and `b` readings of the clock, and continues depending on the result. -/
inductive Prog (α : Type) : Type 1 where
  | ret (r : Except Err α)
  | call (a b : Nat) {β : Type} (m : Act β) (k : Except Err β → Prog α)

/-- Run without interruption. -/
def Prog.eval {α : Type} : Prog α → Act α
  | .ret r => Act.ofExcept r
  | .call _ _ m k => fun w =>
    match m w with
    | (.ok x, w') => (k (.ok x)).eval w'
    | (.err e, w') => (k (.error e)).eval w'
    | (.crash, w') => (.crash, w')

/-- The outcomes of the system calls and the readings of the clock to come. -/
def _root_.Ruroco.World.given (w : World) (os : List Choice) (ts : List (Option U128)) : World := { w with oracle := os, clock := ts }

/-- `m` is one step: it has at most one system call or one look at the clock (`a` and `b` say which), its result depends on these only, and it neither looks at the lock file nor at files of other programs,
nor changes them. -/
structure Single (dir : Path) (a b : Nat) {β : Type} (m : Act β) : Prop where
  atMostOne : a + b ≤ 1
  uses : ∀ (w : World) os ts o t, os.length = a → ts.length = b → m (w.given (os ++ o) (ts ++ t)) = ((m (w.given os ts)).1, (m (w.given os ts)).2.given o t)
  own : ∀ (w u : World) os ts, Alike dir w u → os.length = a → ts.length = b → (m (w.given os ts)).1 = (m (u.given os ts)).1 ∧ Alike dir (m (w.given os ts)).2 (m (u.given os ts)).2
  logs : ∀ (w : World) os ts, w.log <+: (m (w.given os ts)).2.log
  /-- the conventions of `Model/Sys` for outcomes not listed: calls succeed, the clock cannot be read -/
  unlisted : ∀ (w : World) os ts, m (w.given [] ts) = m (w.given (List.replicate a .ok) ts) ∧ m (w.given os []) = m (w.given os (List.replicate b none))

/-- Every step of the program is a single one. -/
inductive Stepwise (dir : Path) {α : Type} : Prog α → Prop
  | ret (r : Except Err α) : Stepwise dir (.ret r)
  | call {a b : Nat} {β : Type} {m : Act β} {k : Except Err β → Prog α} (h : Single dir a b m) (hk : ∀ r, Stepwise dir (k r)) : Stepwise dir (.call a b m k)

/-- What a client does with the lock in its hands: /repo/src/client/mod.rs:31 and 40-44, /repo/src/ui/mod.rs:25. Other jobs (`gen`, `update`, `wizard`) do not touch the counter: they are `others` below. -/
def _root_.Ruroco.Spec.AtOnce.Job.body (A : Aead) (hash : List Char → U64) (dir : Path) : Job → Act Unit
  | .send cmd senv => do
    let s ← Sender.create dir cmd senv
    s.send A hash senv
  | .reseed => do
    let now ← nowNanos
    Counter.reseed (counterPath dir) now

/-- `code` is the client, cut into single steps. -/
def IsCode (A : Aead) (hash : List Char → U64) (dir : Path) (code : Job → Prog Unit) : Prop :=
  ∀ job, (∀ w, (code job).eval w = job.body A hash dir w) ∧ Stepwise dir (code job)

/-- How far a process is. -/
inductive Proc where
  | absent
  /-- it has the lock file open (instance_lock.rs:20-25) -/
  | opened
  /-- it holds the lock and waits for something to do -/
  | idle
  | busy (rest : Prog Unit)

def Proc.works : Proc → Prop
  | .busy _ => True
  | _ => False

/-- The machine: what is on its disk, which process holds the lock, how far each process is; `did` is what the holders of the lock were asked to do so far, and the power losses. -/
structure Machine where
  w : World
  holder : Option Nat
  proc : Nat → Proc
  did : List Did

def Machine.setProc (s : Machine) (p : Nat) (c : Proc) : Machine := { s with proc := fun q => if q = p then c else s.proc q }

/-- The process ends; the kernel closes its files and so releases its lock. -/
def Machine.exit (s : Machine) (p : Nat) : Machine := { s.setProc p .absent with holder := if s.holder = some p then none else s.holder }

/-- Nobody runs. -/
def Machine.start (w : World) : Machine := ⟨w, none, fun _ => .absent, []⟩

/-- How a process goes on after a step. -/
def Machine.after (s : Machine) (p : Nat) {β : Type} (k : Except Err β → Prog Unit) : Out β × World → Machine
  | (.ok x, w') => { s.setProc p (.busy (k (.ok x))) with w := w' }
  | (.err e, w') => { s.setProc p (.busy (k (.error e))) with w := w' }
  | (.crash, w') => { s.exit p with w := w' }

/-- What a step of the machine is. -/
inductive Move where
  | opens (p : Nat)
  | granted (p : Nat)
  | refused (p : Nat)
  | begins (p : Nat) (job : Job)
  | works (p : Nat) (os : List Choice) (ts : List (Option U128))
  | ends (p : Nat)
  | exits (p : Nat)
  | power
  | others

/-- One step of the machine. -/
inductive MStep (dir : Path) (code : Job → Prog Unit) : Machine → Move → Machine → Prop
  /-- process `p` starts and opens the lock file, which may fail (instance_lock.rs:20-25) -/
  | opens (s : Machine) (p : Nat) (c : Choice) (hp : s.proc p = .absent) (o : Out Unit) (w' : World) (h : openCreate (lockPath dir) (s.w.given [c] []) = (o, w')) :
      MStep dir code s (.opens p) { s.setProc p (if o = .ok () then .opened else .absent) with w := w' }
  /-- `flock` is granted: nobody holds the lock (instance_lock.rs:27-28) -/
  | granted (s : Machine) (p : Nat) (hp : s.proc p = .opened) (hh : s.holder = none) :
      MStep dir code s (.granted p) { s.setProc p .idle with w := { s.w with log := s.w.log ++ [.file .lock (lockPath dir)] }, holder := some p }
  /-- `flock` fails: somebody holds the lock, or for another reason; the process ends with an error -/
  | refused (s : Machine) (p : Nat) (hp : s.proc p = .opened) : MStep dir code s (.refused p) { s.exit p with w := { s.w with log := s.w.log ++ [.file .lock (lockPath dir)] } }
  /-- a job begins: that of the command line, or a button is pressed -/
  | begins (s : Machine) (p : Nat) (job : Job) (hp : s.proc p = .idle) : MStep dir code s (.begins p job) { s.setProc p (.busy (code job)) with did := s.did ++ [.job job] }
  /-- one step of the job, with the outcome and the time chosen by the scheduler -/
  | works (s : Machine) (p : Nat) (a b : Nat) (β : Type) (m : Act β) (k : Except Err β → Prog Unit) (hp : s.proc p = .busy (.call a b m k)) (os : List Choice) (ts : List (Option U128))
      (ho : os.length = a) (ht : ts.length = b) : MStep dir code s (.works p os ts) (s.after p k (m (s.w.given os ts)))
  | ends (s : Machine) (p : Nat) (r : Except Err Unit) (hp : s.proc p = .busy (.ret r)) : MStep dir code s (.ends p) (s.setProc p .idle)
  /-- a process that is not in the middle of a job ends, or is killed -/
  | exits (s : Machine) (p : Nat) (hp : ¬ (s.proc p).works) : MStep dir code s (.exits p) (s.exit p)
  /-- the machine loses power -/
  | power (s : Machine) (w' : World) (hp : ∀ p, ¬ (s.proc p).works) (h : Spec.PowerLoss s.w w') : MStep dir code s .power ⟨w', none, fun _ => .absent, s.did ++ [.power]⟩
  /-- other programs do something with other files -/
  | others (s : Machine) (w' : World) (hfs : ∀ q, Own dir q → w'.fs q = s.w.fs q ∧ w'.pend q = s.w.pend q) (hmask : w'.umask = s.w.umask) (hlog : w'.log = s.w.log) :
      MStep dir code s .others { s with w := w' }

/-- Any number of steps. -/
inductive MRun (dir : Path) (code : Job → Prog Unit) : Machine → Machine → Prop
  | nil (s : Machine) : MRun dir code s s
  | snoc {s s' s'' : Machine} {a : Move} : MRun dir code s s' → MStep dir code s' a s'' → MRun dir code s s''

end Ruroco.AtOnce
