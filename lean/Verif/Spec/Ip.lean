import Verif.Model.Ip

/-!
# Specification: when two notations mean the same host address

Independent of the code: an IPv4 address `a` and the IPv6 address with value `0xffff * 2^32 + a` (`::ffff:a`) are the same
host address; otherwise addresses are the same only if equal.
-/

namespace Ruroco.Spec

/-- `x` is the IPv4-mapped IPv6 notation of the IPv4 address `a`. -/
def IsMappedOf (x : BitVec 128) (a : BitVec 32) : Prop := x.toNat = 0xffff * 2 ^ 32 + a.toNat

/-- The two notations denote the same host address. -/
def SameHost : Ip → Ip → Prop
  | .v4 a, .v4 b => a = b
  | .v6 x, .v6 y => x = y
  | .v4 a, .v6 x => IsMappedOf x a
  | .v6 x, .v4 a => IsMappedOf x a

end Ruroco.Spec
