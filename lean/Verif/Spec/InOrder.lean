import Verif.Model.Joint
import Verif.Model.Commander
import Verif.Spec.Ip

/-! # What the user asked for, in order -/

namespace Ruroco.Spec

/-- The sends the user made, in order. -/
def asked : List JEv → List SendCmd
  | [] => []
  | .client (.send _ _ cmd _) :: evs => cmd :: asked evs
  | _ :: evs => asked evs

/-- The datagrams a send may be good for: one, or two if it is not restricted to one address family. -/
def chances (cmd : SendCmd) : List SendCmd := if cmd.ipv4 ≠ cmd.ipv6 then [cmd] else [cmd, cmd]

/-- The messages made with the key. -/
def OfKey (b : Bond) (x : List Byte × U128 × List Byte) : Bool := x.1.take 8 = b.k

/-- What is executed is what the send asked for: the command configured under the name given, for the address given with `--ip` (if one was). -/
structure AsAsked (hash : List Char → U64) (c : Commander) (cmd : SendCmd) (done : List Char × Ip) : Prop where
  command : ∃ spec, c.cmds.get (hash cmd.command) = some spec ∧ done.1 = spec.cmd
  address : ∀ t a, cmd.ip = some t → parseIp t = some a → a ≠ .v6 0 → SameHost done.2 a

end Ruroco.Spec
