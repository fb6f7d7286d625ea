import Verif.Model.Units

/-!
# Specification for C92: what a unit permits, and a sandbox that enforces it
-/

namespace Ruroco.Spec

/-- What a service with this unit can do. Looking at files is always possible, changing them where the unit leaves them writable. -/
inductive Permitted (u : UnitFile) : Event → Prop where
  | look (op : FileOp) (q : Path) (h : op = .stat ∨ op = .read) (hc : u.callAllowed op = true) : Permitted u (.file op q)
  | change (op : FileOp) (q : Path) (hc : u.callAllowed op = true) (hb : op = .bind → u.family "AF_UNIX" = true) (hw : u.writable q = true) : Permitted u (.file op q)
  | connect (h : u.family "AF_UNIX" = true) : Permitted u .connect
  | forward (h : u.family "AF_UNIX" = true) (dg : List Byte) (c : U128) (bs : List Byte) : Permitted u (.forward dg c bs)
  /-- starting, killing and reaping one's own processes -/
  | spawn (cmd : List Char) (ip : Ip) : Permitted u (.spawn cmd ip)
  | kill : Permitted u .kill
  | reap : Permitted u .reap
  /-- no system calls, only remarks in the trace -/
  | statFailed (q : Path) : Permitted u (.statFailed q)
  | dirSyncFailed (q : Path) : Permitted u (.dirSyncFailed q)
  | removeFailed (q : Path) : Permitted u (.removeFailed q)

/-- The number of system calls on files in a piece of the trace. -/
def fileCalls : List Event → Nat
  | [] => 0
  | .file _ _ :: l => fileCalls l + 1
  | _ :: l => fileCalls l

/-- While the world went from `w` to `w'`, the sandbox was enforced: no call on a file that the unit does not permit has worked. (Each call on a file takes one outcome from the oracle. This is meant for a start of the server, in which there are no other calls.) -/
def Enforced (u : UnitFile) (w w' : World) : Prop :=
  ∀ l₁ op q l₂, w'.log = w.log ++ l₁ ++ Event.file op q :: l₂ → ¬ Permitted u (.file op q) → ∃ c, w.oracle[fileCalls l₁]? = some c ∧ c ≠ .ok

end Ruroco.Spec
