import Verif.Model.Ip

/-!
# Which client addresses a command may see

Models /repo/src/commander/ip_filter.rs and the predicates of `std::net` it calls (written from their documentation).
-/

namespace Ruroco

/-- `Ipv4Addr::octets()[i]`. -/
def octet (a : BitVec 32) (i : Nat) : Nat := a.toNat / 256 ^ (3 - i) % 256

/-- `Ipv6Addr::segments()[i]`. -/
def segment (a : BitVec 128) (i : Nat) : Nat := a.toNat / 65536 ^ (7 - i) % 65536

/-- `IpAddr::is_unspecified`. -/
def isUnspecified : Ip → Bool
  | .v4 a => a.toNat == 0
  | .v6 a => a.toNat == 0

/-- `IpAddr::is_loopback`. -/
def isLoopback : Ip → Bool
  | .v4 a => octet a 0 == 127
  | .v6 a => a.toNat == 1

/-- `IpAddr::is_multicast`. -/
def isMulticast : Ip → Bool
  | .v4 a => 224 ≤ octet a 0 && octet a 0 ≤ 239
  | .v6 a => (segment a 0 &&& 0xff00) == 0xff00

/-- `Ipv4Addr::is_broadcast`. -/
def isBroadcast (a : BitVec 32) : Bool := octet a 0 == 255 && octet a 1 == 255 && octet a 2 == 255 && octet a 3 == 255

/-- `Ipv4Addr::is_private`. -/
def isPrivate (a : BitVec 32) : Bool :=
  octet a 0 == 10 || (octet a 0 == 172 && 16 ≤ octet a 1 && octet a 1 ≤ 31) || (octet a 0 == 192 && octet a 1 == 168)

/-- `Ipv4Addr::is_link_local`. -/
def isLinkLocal4 (a : BitVec 32) : Bool := octet a 0 == 169 && octet a 1 == 254

/-- `Ipv4Addr::is_documentation`. -/
def isDocumentation4 (a : BitVec 32) : Bool :=
  (octet a 0 == 192 && octet a 1 == 0 && octet a 2 == 2) || (octet a 0 == 198 && octet a 1 == 51 && octet a 2 == 100) ||
    (octet a 0 == 203 && octet a 1 == 0 && octet a 2 == 113)

/-- `Ipv6Addr::is_unique_local`. -/
def isUniqueLocal (a : BitVec 128) : Bool := (segment a 0 &&& 0xfe00) == 0xfc00

/-- `Ipv6Addr::is_unicast_link_local`. -/
def isLinkLocal6 (a : BitVec 128) : Bool := (segment a 0 &&& 0xffc0) == 0xfe80

/-- ip_filter.rs:26-29 `is_ipv6_documentation`. -/
def isDocumentation6 (a : BitVec 128) : Bool := segment a 0 == 0x2001 && segment a 1 == 0x0db8

/-- ip_filter.rs:45-47 `is_ipv4_this_network`. -/
def isThisNetwork (a : BitVec 32) : Bool := octet a 0 == 0

/-- ip_filter.rs:52-55 `is_ipv4_shared_cgnat`. -/
def isSharedCgnat (a : BitVec 32) : Bool := octet a 0 == 100 && (64 ≤ octet a 1 && octet a 1 ≤ 127)

/-- ip_filter.rs:58-61 `is_ipv4_ietf_protocol_assignment`. -/
def isIetfAssignment (a : BitVec 32) : Bool := octet a 0 == 192 && octet a 1 == 0 && octet a 2 == 0

/-- ip_filter.rs:65-68 `is_ipv4_benchmarking`. -/
def isBenchmarking (a : BitVec 32) : Bool := octet a 0 == 198 && (octet a 1 == 18 || octet a 1 == 19)

/-- ip_filter.rs:73-75 `is_ipv4_reserved`. -/
def isReserved (a : BitVec 32) : Bool := octet a 0 ≥ 240

/-- ip_filter.rs:31-41 `is_ipv4_rejected`. -/
def isV4Rejected (a : BitVec 32) : Bool :=
  isBroadcast a || isPrivate a || isLinkLocal4 a || isDocumentation4 a || isThisNetwork a || isSharedCgnat a || isIetfAssignment a ||
    isBenchmarking a || isReserved a

/-- ip_filter.rs:19-21 `is_ipv6_rejected`. -/
def isV6Rejected (a : BitVec 128) : Bool := isUniqueLocal a || isLinkLocal6 a || isDocumentation6 a

/-- ip_filter.rs:7-17 `is_routable`. -/
def isRoutable (ip : Ip) : Bool :=
  let reject := isUnspecified ip || isLoopback ip || isMulticast ip || (match ip with
    | .v4 a => isV4Rejected a
    | .v6 a => isV6Rejected a)
  !reject

end Ruroco
