import Verif.Spec.Effects
import Verif.Spec.Commander

/-!
# Specification for C87: what the commander itself may do
-/

namespace Ruroco.Spec

/-- The files in which the output of commands is captured: `<pre><number>-out` and `<pre><number>-err`; `pre` is the directory for temporary files, `ruroco-cmd-` and the process id. -/
def CaptureFile (pre q : Path) : Prop := ∃ n : Nat, q = pre ++ (toString n).toList ++ "-out".toList ∨ q = pre ++ (toString n).toList ++ "-err".toList

/-- What the commander may be seen doing while it serves requests: operations on capture files, starting the commands `starts`, killing and reaping them. -/
inductive CommanderMay (pre : Path) (starts : List (List Char × Ip)) : Event → Prop where
  | file (op : FileOp) (q : Path) (h : CaptureFile pre q) : CommanderMay pre starts (.file op q)
  | removeFailed (q : Path) (h : CaptureFile pre q) : CommanderMay pre starts (.removeFailed q)
  | spawn (cmd : List Char) (ip : Ip) (h : (cmd, ip) ∈ starts) : CommanderMay pre starts (.spawn cmd ip)
  | kill : CommanderMay pre starts .kill
  | reap : CommanderMay pre starts .reap

/-- What it may be seen doing when it starts: creating the directory of the socket, operations on the lock file in it and on the socket. -/
inductive ListenerMay (socket : Path) : Event → Prop where
  | mkdir : ListenerMay socket (.file .mkdir (dirname socket))
  | lock (op : FileOp) : ListenerMay socket (.file op (dirname socket ++ "commander.lock".toList))
  | socket (op : FileOp) : ListenerMay socket (.file op socket)
  | removeFailed : ListenerMay socket (.removeFailed socket)

end Ruroco.Spec
