import Verif.Model.Ip

/-!
# Specification: address blocks in CIDR notation
-/

namespace Ruroco.Spec

/-- `a.b.c.d/len` -/
structure Block4 where
  a : Nat
  b : Nat
  c : Nat
  d : Nat
  len : Nat

/-- The first `len` bits agree. -/
def Block4.Contains (k : Block4) (x : BitVec 32) : Prop :=
  x.toNat / 2 ^ (32 - k.len) = (((k.a * 256 + k.b) * 256 + k.c) * 256 + k.d) / 2 ^ (32 - k.len)

/-- `value/len`, the value written as a 128-bit number. -/
structure Block6 where
  value : Nat
  len : Nat

def Block6.Contains (k : Block6) (x : BitVec 128) : Prop := x.toNat / 2 ^ (128 - k.len) = k.value / 2 ^ (128 - k.len)

/-- The IPv4 blocks a command must not be given. -/
def nonRoutable4 : List Block4 :=
  [⟨0, 0, 0, 0, 8⟩,        -- this network, unspecified
   ⟨10, 0, 0, 0, 8⟩,       -- private
   ⟨100, 64, 0, 0, 10⟩,    -- carrier-grade NAT
   ⟨127, 0, 0, 0, 8⟩,      -- loopback
   ⟨169, 254, 0, 0, 16⟩,   -- link-local
   ⟨172, 16, 0, 0, 12⟩,    -- private
   ⟨192, 0, 0, 0, 24⟩,     -- IETF protocol assignments
   ⟨192, 0, 2, 0, 24⟩,     -- documentation
   ⟨192, 168, 0, 0, 16⟩,   -- private
   ⟨198, 18, 0, 0, 15⟩,    -- benchmarking
   ⟨198, 51, 100, 0, 24⟩,  -- documentation
   ⟨203, 0, 113, 0, 24⟩,   -- documentation
   ⟨224, 0, 0, 0, 4⟩,      -- multicast
   ⟨240, 0, 0, 0, 4⟩]      -- reserved, broadcast

/-- The IPv6 blocks a command must not be given. -/
def nonRoutable6 : List Block6 :=
  [⟨0x00000000000000000000000000000000, 128⟩,  -- ::
   ⟨0x00000000000000000000000000000001, 128⟩,  -- ::1
   ⟨0xff000000000000000000000000000000, 8⟩,    -- ff00::/8 multicast
   ⟨0xfc000000000000000000000000000000, 7⟩,    -- fc00::/7 unique local
   ⟨0xfe800000000000000000000000000000, 10⟩,   -- fe80::/10 link-local
   ⟨0x20010db8000000000000000000000000, 32⟩]   -- 2001:db8::/32 documentation

/-- The address lies in one of the blocks. -/
def NonRoutable : Ip → Prop
  | .v4 a => ∃ k ∈ nonRoutable4, k.Contains a
  | .v6 a => ∃ k ∈ nonRoutable6, k.Contains a

end Ruroco.Spec
