import Verif.Model.Commander

/-!
# The processes of a command

A command is text handed to `sh -c` (/repo/src/commander/exec.rs:132-139). The shell starts further processes. Here are the processes of one command over time and what the commander's kill
(exec.rs:149-153) changes.
-/

namespace Ruroco

/-- A process of a command, as it goes if nobody kills anything. `parent`: the process that forks it (`none`: the shell, started by the commander). `stop`: when it ends by itself; `none`: it does
not. Process identifiers are not reused while the command is observed. Instants are nanoseconds. -/
structure Proc where
  id : Nat
  parent : Option Nat
  start : Nat
  stop : Option Nat
deriving DecidableEq, Repr

/-- The process runs at instant `t`. -/
def Proc.runsAt (p : Proc) (t : Nat) : Bool := decide (p.start ≤ t) && p.stop.all (fun e => decide (t < e))

/-- SIGKILL sent at instant `k` to the process `id`, and to no other (exec.rs:149-151: "the `sh` process only (not its process group)"). -/
def Proc.kill (id k : Nat) (p : Proc) : Proc := if p.id = id then { p with stop := some (p.stop.elim k (min k)) } else p

/-- What happens to the listed processes (in the order in which they are forked) when process `id` is sent SIGKILL at `k`, for `sig = some (id, k)`, or when nothing is killed: a process comes into
being only if the one that forks it is running at that moment. The death of its parent does not end a process: it is handed to the reaper. Processes do not otherwise react to the death of
another one (no `PR_SET_PDEATHSIG`, no SIGPIPE: output goes to files, exec.rs:136-137). -/
def replay (sig : Option (Nat × Nat)) : List Proc → List Proc → List Proc
  | acc, [] => acc
  | acc, p :: rest =>
    let p' := sig.elim p (fun s => p.kill s.1 s.2)
    match p.parent with
    | none => replay sig (p' :: acc) rest
    | some q => if acc.any (fun r => decide (r.id = q) && r.runsAt p.start) then replay sig (p' :: acc) rest else replay sig acc rest

/-- The identifier of the shell. -/
def SHELL : Nat := 0

/-- exec.rs:132-139: the shell; it ends by itself as `env.exit` says. Simplified: the shell starts at the instant that the deadline is reckoned from (exec.rs:144 reads the clock just after). -/
def shellOf (env : ChildEnv) : Proc := ⟨SHELL, none, env.startAt, env.exit.map (·.1)⟩

/-- exec.rs:145-157: whether and when the polling loop killed the shell. -/
def Polled.killedAt : Polled → Option Nat
  | .timedOut k | .reapFailed k => some k
  | _ => none

/-- The processes of a command executed by the commander. `forks`: what the shell and its descendants start, in order, as long as nobody is killed. -/
def processesOf (env : ChildEnv) (timeout : Nat) (forks : List Proc) : List Proc :=
  replay ((pollLoop env.exit (deadlineOf env.startAt timeout) env.rounds).killedAt.map (fun k => (SHELL, k))) [] (shellOf env :: forks)

/-- The same, had the command no time limit. -/
def undisturbed (env : ChildEnv) (forks : List Proc) : List Proc := replay none [] (shellOf env :: forks)

end Ruroco
