import Verif.Model.IpFilter
import Verif.Model.Protocol

/-!
# Text form of addresses

Models the parts of std (`core::net::parser`, `core::net::display`) the client, server and commander use: `IpAddr::from_str`, `SocketAddr::from_str`,
`Display` for both, `u16::from_str`. The parser state is the remaining text; `none` leaves the state unchanged (`read_atomically`).
A `SocketAddr` is an address and a port; flow label is not printable, the scope id is parsed and dropped.
-/

namespace Ruroco

/-! ## Parsing -/

/-- `char::to_digit`. -/
def toDigit (radix : Nat) (c : Char) : Option Nat :=
  let n := c.toNat
  let d := if 48 ≤ n ∧ n ≤ 57 then some (n - 48)
    else if 97 ≤ n ∧ n ≤ 122 then some (n - 97 + 10)
    else if 65 ≤ n ∧ n ≤ 90 then some (n - 65 + 10)
    else none
  match d with
  | some v => if v < radix then some v else none
  | none => none

/-- Value of a string of digits, most significant first. -/
def ofDigits (radix : Nat) (ds : List Char) : Nat := ds.foldl (fun acc c => acc * radix + (toDigit radix c).getD 0) 0

/-- `Parser::read_number`: all digits that follow are consumed; too many digits, a value of `bound` or more, no digit at all, or a forbidden leading
zero is a failure. -/
def readNumber (radix : Nat) (maxDigits : Option Nat) (allowZeroPrefix : Bool) (bound : Nat) (t : List Char) : Option (Nat × List Char) :=
  let ds := t.takeWhile (fun c => (toDigit radix c).isSome)
  if maxDigits.any (fun m => decide (m < ds.length)) then none
  else if bound ≤ ofDigits radix ds then none
  else if ds = [] then none
  else if !allowZeroPrefix && ds.head? == some '0' && decide (1 < ds.length) then none
  else some (ofDigits radix ds, t.drop ds.length)

/-- `Parser::read_given_char`. -/
def readChar (c : Char) : List Char → Option (List Char)
  | [] => none
  | d :: t => if d = c then some t else none

/-- `Parser::read_separator`. -/
def readSep (sep : Char) (i : Nat) (inner : List Char → Option (α × List Char)) (t : List Char) : Option (α × List Char) :=
  if i = 0 then inner t
  else match readChar sep t with
    | some t' => inner t'
    | none => none

/-- One octet: `read_number(10, Some(3), false)` into a `u8`. -/
def readOctet (t : List Char) : Option (Nat × List Char) := readNumber 10 (some 3) false 256 t

/-- `Parser::read_ipv4_addr`, as the 32-bit value. -/
def readIpv4 (t : List Char) : Option (Nat × List Char) :=
  match readSep '.' 0 readOctet t with
  | none => none
  | some (a, t) =>
    match readSep '.' 1 readOctet t with
    | none => none
    | some (b, t) =>
      match readSep '.' 2 readOctet t with
      | none => none
      | some (c, t) =>
        match readSep '.' 3 readOctet t with
        | none => none
        | some (d, t) => some (((a * 256 + b) * 256 + c) * 256 + d, t)

/-- One group: `read_number(16, Some(4), true)` into a `u16`. -/
def readGroup (t : List Char) : Option (Nat × List Char) := readNumber 16 (some 4) true 65536 t

/-- `read_groups`: position `i`, `left` groups still free; result: groups read, whether an embedded IPv4 address ended them, remaining text. -/
def readGroups (i : Nat) : (left : Nat) → List Char → List Nat × Bool × List Char
  | 0, t => ([], false, t)
  | left + 1, t =>
    match (if 0 < left then readSep ':' i readIpv4 t else none) with
    | some (v4, t') => ([v4 / 65536, v4 % 65536], true, t')
    | none =>
      match readSep ':' i readGroup t with
      | some (g, t') =>
        let r := readGroups (i + 1) left t'
        (g :: r.1, r.2.1, r.2.2)
      | none => ([], false, t)

/-- `Ipv6Addr::from([u16; 8])`, as a number. -/
def ofSegments (gs : List Nat) : Nat := gs.foldl (fun acc g => acc * 65536 + g) 0

/-- `Parser::read_ipv6_addr`, as the 128-bit value. -/
def readIpv6 (t : List Char) : Option (Nat × List Char) :=
  let head := readGroups 0 8 t
  if head.1.length = 8 then some (ofSegments head.1, head.2.2)
  else if head.2.1 then none
  else
    match readChar ':' head.2.2 with
    | none => none
    | some t1 =>
      match readChar ':' t1 with
      | none => none
      | some t2 =>
        let tail := readGroups 0 (7 - head.1.length) t2
        some (ofSegments (head.1 ++ List.replicate (8 - head.1.length - tail.1.length) 0 ++ tail.1), tail.2.2)

/-- `Parser::read_ip_addr`. -/
def readIp (t : List Char) : Option (Ip × List Char) :=
  match readIpv4 t with
  | some (a, t') => some (.v4 (BitVec.ofNat 32 a), t')
  | none =>
    match readIpv6 t with
    | some (a, t') => some (.v6 (BitVec.ofNat 128 a), t')
    | none => none

/-- `IpAddr::from_str` (`parse_with`: everything must be consumed). -/
def parseIp (t : List Char) : Option Ip :=
  match readIp t with
  | some (ip, []) => some ip
  | _ => none

/-- `Parser::read_port`. -/
def readPort (t : List Char) : Option (Nat × List Char) :=
  match readChar ':' t with
  | none => none
  | some t => readNumber 10 none true 65536 t

/-- `std::net::SocketAddr`. -/
structure SockAddr where
  ip : Ip
  port : Nat
deriving DecidableEq, Repr

/-- `Parser::read_socket_addr_v4`. -/
def readSockV4 (t : List Char) : Option (SockAddr × List Char) :=
  match readIpv4 t with
  | none => none
  | some (a, t) =>
    match readPort t with
    | none => none
    | some (p, t) => some (⟨.v4 (BitVec.ofNat 32 a), p⟩, t)

/-- `read_scope_id().unwrap_or(0)`, value dropped. -/
def skipScope (t : List Char) : List Char :=
  match readChar '%' t with
  | none => t
  | some t' =>
    match readNumber 10 none true (2 ^ 32) t' with
    | some (_, t'') => t''
    | none => t

/-- `Parser::read_socket_addr_v6`. -/
def readSockV6 (t : List Char) : Option (SockAddr × List Char) :=
  match readChar '[' t with
  | none => none
  | some t =>
    match readIpv6 t with
    | none => none
    | some (a, t) =>
      match readChar ']' (skipScope t) with
      | none => none
      | some t =>
        match readPort t with
        | none => none
        | some (p, t) => some (⟨.v6 (BitVec.ofNat 128 a), p⟩, t)

/-- `SocketAddr::from_str`. -/
def parseSockAddr (t : List Char) : Option SockAddr :=
  match readSockV4 t with
  | some (a, []) => some a
  | some (_, _ :: _) => none
  | none =>
    match readSockV6 t with
    | some (a, []) => some a
    | _ => none

/-- The optional sign of `u16::from_str`. -/
def stripPlus : List Char → List Char
  | [] => []
  | c :: t => if c = '+' then t else c :: t

/-- `u16::from_str`: an optional `+`, then decimal digits only. -/
def parseU16 (t : List Char) : Option Nat :=
  let ds := stripPlus t
  if ds ≠ [] ∧ ds.all (fun c => (toDigit 10 c).isSome) ∧ ofDigits 10 ds < 65536 then some (ofDigits 10 ds) else none

/-! ## Printing -/

/-- `{}` / `{:x}` of an unsigned number. -/
def showRadix (radix n : Nat) : List Char := Nat.toDigits radix n

/-- `Display for Ipv4Addr`. -/
def showIpv4 (a : Nat) : List Char :=
  showRadix 10 (a / 16777216 % 256) ++ '.' :: showRadix 10 (a / 65536 % 256) ++ '.' :: showRadix 10 (a / 256 % 256) ++ '.' :: showRadix 10 (a % 256)

/-- `fmt_subslice`. -/
def showGroups : List Nat → List Char
  | [] => []
  | [g] => showRadix 16 g
  | g :: gs => showRadix 16 g ++ ':' :: showGroups gs

/-- The longest run of zero groups as (start, length): the first one among equals. `i`: position; `cur`, `best`: current and longest run so far. -/
def longestZeros (i : Nat) (cur best : Nat × Nat) : List Nat → Nat × Nat
  | [] => best
  | g :: gs =>
    if g = 0 then
      let cur' := if cur.2 = 0 then (i, 1) else (cur.1, cur.2 + 1)
      longestZeros (i + 1) cur' (if best.2 < cur'.2 then cur' else best) gs
    else longestZeros (i + 1) (0, 0) best gs

/-- `Ipv6Addr::segments`. -/
def segments (a : BitVec 128) : List Nat := (List.range 8).map (segment a)

/-- `Display for Ipv6Addr`. -/
def showIpv6 (a : BitVec 128) : List Char :=
  match toV4Mapped a with
  | some v4 => "::ffff:".toList ++ showIpv4 v4.toNat
  | none =>
    let gs := segments a
    let z := longestZeros 0 (0, 0) (0, 0) gs
    if 1 < z.2 then showGroups (gs.take z.1) ++ "::".toList ++ showGroups (gs.drop (z.1 + z.2))
    else showGroups gs

/-- `Display for IpAddr`: the text in `RUROCO_IP` (/repo/src/commander/exec.rs:136). -/
def showIp : Ip → List Char
  | .v4 a => showIpv4 a.toNat
  | .v6 a => showIpv6 a

/-- `Display for SocketAddr` (scope id 0). -/
def showSockAddr (s : SockAddr) : List Char :=
  match s.ip with
  | .v4 a => showIpv4 a.toNat ++ ':' :: showRadix 10 s.port
  | .v6 a => '[' :: showIpv6 a ++ "]:".toList ++ showRadix 10 s.port

/-! ## The client's use (/repo/src/client/send/core.rs:44-68) -/

/-- /repo/src/common/mod.rs:40 `DEFAULT_PORT` -/
def DEFAULT_PORT : Nat := 80

/-- `str::rsplit_once(':')`: text before and after the last colon. -/
def rsplitColon (t : List Char) : Option (List Char × List Char) :=
  if ':' ∈ t then
    let port := (t.reverse.takeWhile (· ≠ ':')).reverse
    some (t.take (t.length - port.length - 1), port)
  else none

/-- core.rs:49-68 `ensure_port`. -/
def ensurePort (address : List Char) (defaultPort : Nat) : Except Err (List Char) :=
  if (parseSockAddr address).isSome then .ok address
  else
    match parseIp address with
    | some ip => .ok (showSockAddr ⟨ip, defaultPort⟩)
    | none =>
      match rsplitColon address with
      | none => if address ≠ [] then .ok (address ++ ':' :: showRadix 10 defaultPort) else .error .config
      | some (host, port) =>
        if host ≠ [] ∧ ':' ∉ host then
          match parseU16 port with
          | some _ => .ok address
          | none => .error .config
        else .error .config

end Ruroco
