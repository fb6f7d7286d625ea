import Verif.Model.CommanderLog
import Verif.Spec.Commander

/-!
# Specification for C86: the audit trail of the commander
-/

namespace Ruroco.Spec

/-- The execution an entry is a record of: what was executed, and for whom. -/
def recorded : CmdrEntry → Option (List Char × Ip)
  | .finished cmd ip _ _ _ => some (cmd, ip)
  | .timedOut _ cmd ip _ _ => some (cmd, ip)
  | .execFailed cmd ip _ => some (cmd, ip)
  | _ => none

/-- The text of a file; none if there is no such file or it is not text. -/
def fileText (T : TextCodec) (f : Option File) : Option (List Char) := f.bind (fun f => T.dec f.data)

/-- The file system in which the output of a command is captured: as `fs`, but with these two files empty (and with the permissions they had, if they existed). -/
def withCaptures (fs : Path → Option File) (newMode : Nat) (out err : Path) : Path → Option File := fun q =>
  if q = out ∨ q = err then
    some ⟨[], (match fs q with | some f => f.mode | none => newMode), false, (match fs q with | some f => f.owner | none => .creator)⟩
  else fs q

end Ruroco.Spec
