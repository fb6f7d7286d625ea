import Verif.Model.IpText

/-!
# Specification: the texts of addresses

A grammar (RFC 4291, 2.2, and RFC 3986, 3.2.2), independent of the parser: which text is which address.
-/

namespace Ruroco.Spec

/-- `c` is the digit `d`. -/
def DigitIs (c : Char) (d : Nat) : Prop := "0123456789abcdef".toList[d]? = some c ∨ "0123456789ABCDEF".toList[d]? = some c

/-- `t` is a number in the given base. -/
inductive Numeral (base : Nat) : List Char → Nat → Prop
  | one (c : Char) (d : Nat) (hc : DigitIs c d) (hd : d < base) : Numeral base [c] d
  | more (t : List Char) (n : Nat) (c : Char) (d : Nat) (ht : Numeral base t n) (hc : DigitIs c d) (hd : d < base) : Numeral base (t ++ [c]) (n * base + d)

/-- The decimal number `n`, without leading zeros. -/
def decimalText (n : Nat) : List Char := Nat.toDigits 10 n

/-- Four decimal numbers below 256, without leading zeros, separated by dots. -/
def V4Text (t : List Char) (v : Nat) : Prop :=
  ∃ a b c d, a < 256 ∧ b < 256 ∧ c < 256 ∧ d < 256 ∧ t = decimalText a ++ '.' :: (decimalText b ++ '.' :: (decimalText c ++ '.' :: decimalText d)) ∧ v = ((a * 256 + b) * 256 + c) * 256 + d

/-- One to four hexadecimal digits. -/
def GroupText (t : List Char) (n : Nat) : Prop := Numeral 16 t n ∧ t.length ≤ 4

/-- Groups separated by colons; `dotted`: the last two are written as an IPv4 address. -/
inductive GroupsText : (dotted : Bool) → List Char → List Nat → Prop
  | one (t : List Char) (n : Nat) (h : GroupText t n) : GroupsText false t [n]
  | dotted (t : List Char) (v : Nat) (h : V4Text t v) : GroupsText true t [v / 65536, v % 65536]
  | more (d : Bool) (t u : List Char) (n : Nat) (ns : List Nat) (h : GroupText t n) (hu : GroupsText d u ns) : GroupsText d (t ++ ':' :: u) (n :: ns)

/-- No groups, or some. -/
def MaybeGroups (d : Bool) (t : List Char) (ns : List Nat) : Prop := (t = [] ∧ ns = []) ∨ GroupsText d t ns

/-- Groups of 16 bits as one number. -/
def groupsValue (ns : List Nat) : Nat := ns.foldl (fun v n => v * 65536 + n) 0

/-- Eight groups; or at most seven, with `::` for the missing ones, which are zero. -/
inductive V6Text : List Char → Nat → Prop
  | full (d : Bool) (t : List Char) (ns : List Nat) (h : GroupsText d t ns) (h8 : ns.length = 8) : V6Text t (groupsValue ns)
  | short (d : Bool) (t u : List Char) (ns ms : List Nat) (h : MaybeGroups false t ns) (hu : MaybeGroups d u ms) (h7 : ns.length + ms.length ≤ 7) :
      V6Text (t ++ ':' :: ':' :: u) (groupsValue (ns ++ List.replicate (8 - ns.length - ms.length) 0 ++ ms))

/-- `t` is the address `ip`. -/
inductive IpText : List Char → Ip → Prop
  | v4 (t : List Char) (v : Nat) (h : V4Text t v) : IpText t (.v4 (BitVec.ofNat 32 v))
  | v6 (t : List Char) (v : Nat) (h : V6Text t v) : IpText t (.v6 (BitVec.ofNat 128 v))

/-- `t` is the number of a port. -/
def PortDigits (t : List Char) (p : Nat) : Prop := Numeral 10 t p ∧ p < 65536

/-- Nothing, or a percent sign and the number of an interface. -/
def ScopeText (t : List Char) : Prop := t = [] ∨ ∃ u n, t = '%' :: u ∧ Numeral 10 u n ∧ n < 2 ^ 32

/-- `t` is an address with a port. -/
inductive SocketText : List Char → SockAddr → Prop
  | v4 (t u : List Char) (v p : Nat) (h : V4Text t v) (hp : PortDigits u p) : SocketText (t ++ ':' :: u) ⟨.v4 (BitVec.ofNat 32 v), p⟩
  | v6 (t s u : List Char) (v p : Nat) (h : V6Text t v) (hs : ScopeText s) (hp : PortDigits u p) : SocketText ('[' :: (t ++ (s ++ ']' :: ':' :: u))) ⟨.v6 (BitVec.ofNat 128 v), p⟩

end Ruroco.Spec
