import Verif.Model.ClientHistory
import Verif.Spec.Client

/-!
# Specification: one after the other

What the clients of a user are asked to do, and when two machines look the same to them and to the network.
-/

namespace Ruroco.Spec.AtOnce

/-- What a client can be asked to do with the counter. -/
inductive Job where
  | send (cmd : SendCmd) (senv : SendEnv)
  | reseed

/-- What happens on the machine. -/
inductive Did where
  | job (job : Job)
  | power

/-- What a history with one event after the other consists of; runs refused because of the lock, and other programs, are left out. -/
def did : CEv → Option Did
  | .send _ false cmd senv => some (.job (.send cmd senv))
  | .reseed _ false => some (.job .reseed)
  | .power => some .power
  | _ => none

/-- The sends among what happened, in order. -/
def sends : List Did → List SendCmd
  | [] => []
  | .job (.send cmd _) :: l => cmd :: sends l
  | _ :: l => sends l

/-- The lock file of the clients, /repo/src/client/mod.rs:24, /repo/src/ui/mod.rs:26. -/
def lockPath (dir : Path) : Path := dir ++ "/client.lock".toList

/-- The counter file, and the temporary files for writing it. -/
def Own (dir : Path) (q : Path) : Prop := counterPath dir <+: q

/-- What is recorded in the trace, except attempts to get the lock. -/
def seen (dir : Path) (log : List Event) : List Event :=
  log.filter fun e => decide (e ≠ .file .openTrunc (lockPath dir)) && decide (e ≠ .file .lock (lockPath dir))

/-- The two machines have the same counter file (and the same temporary files for it), now and after a power loss, and the same system calls were made and the same datagrams sent on them, in the same order; they may differ in the lock file
and in everything that belongs to other programs. -/
structure Alike (dir : Path) (w v : World) : Prop where
  files : ∀ q, Own dir q → w.fs q = v.fs q ∧ w.pend q = v.pend q
  mask : w.umask = v.umask
  log : seen dir w.log = seen dir v.log

end Ruroco.Spec.AtOnce
