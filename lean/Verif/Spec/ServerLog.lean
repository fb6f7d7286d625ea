import Verif.Model.ServerLog
import Verif.Spec.Server

/-!
# Specification: what the server's log should say
-/

namespace Ruroco.Spec

/-- The datagram `dg` from `src` is a legitimate request `d` when the server, in state `s`, begins to process it. -/
def Legitimate (A : Aead) (s : Server) (dg : List Byte) (src : Ip) (w : World) (d : ClientData) : Prop :=
  ∃ now c, w.clock = some now :: c ∧ Acceptable A s now.toNat src dg d

/-- The line that announces the request `d`, which came in the datagram `dg` from `src`: the key, what was asked for, its counter, the counter stored so far, and the address the command is for. -/
def announcement (s : Server) (dg : List Byte) (src : Ip) (d : ClientData) : SrvEntry :=
  .valid (dg.take 8) d.cmdHash d.counter (s.bl.map.get (dg.take 8)) (d.srcIp.getD (normalizeIp src))

/-- How many datagrams a line accounts for as dealt with: an outcome for one, a failure for itself and for those it says were suppressed. -/
def accounts : SrvEntry → Nat
  | .valid .. => 0
  | .sent => 1
  | .notSent => 1
  | .failure _ n => 1 + n

/-- The datagrams received in the turns of the loop. -/
def received : List Turn → Nat
  | [] => 0
  | t :: ts => (match t.recv with | .datagram .. => 1 | _ => 0) + received ts

end Ruroco.Spec
