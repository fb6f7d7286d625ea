import Verif.Model.Protocol
import Verif.Spec.Ip

/-!
# Words used in the statements of `Props/Codec.lean`
-/

namespace Ruroco

open Spec (SameHost)

/-- `ip` is written as an IPv4-mapped IPv6 address (`::ffff:a.b.c.d`). -/
def Spec.IsMappedNotation (ip : Ip) : Prop := ∃ (x : BitVec 128) (a : BitVec 32), ip = .v6 x ∧ Spec.IsMappedOf x a

end Ruroco
