import Verif.Model.Bytes

/-!
# IP addresses

Models `std::net::IpAddr` and ruroco's `normalize_ip`, `serialize_ip`, `deserialize_ip`.
An IPv4 address is its 32-bit value, an IPv6 address its 128-bit value (network order), so `octets()` is `beBytes`.
-/

namespace Ruroco

/-- `std::net::IpAddr`. -/
inductive Ip where
  | v4 (a : BitVec 32)
  | v6 (a : BitVec 128)
deriving DecidableEq, Repr

/-- `Ipv4Addr::to_ipv6_mapped` (std): `::ffff:a.b.c.d`. -/
def v4ToMapped (a : BitVec 32) : BitVec 128 := BitVec.ofNat 128 (0xffff * 2 ^ 32 + a.toNat)

/-- `Ipv6Addr::to_ipv4_mapped` (std): `Some` exactly for `::ffff:a.b.c.d`. -/
def toV4Mapped (a : BitVec 128) : Option (BitVec 32) :=
  if a.toNat / 2 ^ 32 = 0xffff then some (BitVec.ofNat 32 a.toNat) else none

/-- /repo/src/common/mod.rs:25-32 `normalize_ip`. -/
def normalizeIp : Ip → Ip
  | .v6 a => match toV4Mapped a with
    | some b => .v4 b
    | none => .v6 a
  | .v4 a => .v4 a

/-- /repo/src/common/protocol/serialization.rs:7-12 `serialize_ip`. -/
def serializeIp : Ip → List Byte
  | .v4 a => beBytes 16 (v4ToMapped a).toNat
  | .v6 a => beBytes 16 a.toNat

/-- /repo/src/common/protocol/serialization.rs:14-17 `deserialize_ip`; the argument is a `[u8; 16]`. -/
def deserializeIp (data : List Byte) : Ip := normalizeIp (.v6 (BitVec.ofNat 128 (ofBE data)))

end Ruroco
