import Verif.Spec.AddressText

/-!
# Destination addresses, as a user types them

Independent of the model's parsers; "complete socket address" and "IP address" are the ones of the grammar in `Verif.Spec.AddressText`.
-/

namespace Ruroco.Spec

/-- A bare host: something, and no colon in it. -/
def BareHost (t : List Char) : Prop := t ≠ [] ∧ ':' ∉ t

/-- Value of decimal digits. -/
def decimal (ds : List Char) : Nat := ds.foldl (fun acc c => 10 * acc + (c.toNat - '0'.toNat)) 0

/-- Port number text: decimal digits, below 65536, possibly after a plus sign. -/
def PortText (t : List Char) : Prop :=
  ∃ sign ds, t = sign ++ ds ∧ (sign = [] ∨ sign = ['+']) ∧ ds ≠ [] ∧ (∀ c ∈ ds, c.isDigit = true) ∧ decimal ds < 65536

/-- `host:port`. -/
def HostPort (t : List Char) : Prop := ∃ host port, t = host ++ ':' :: port ∧ BareHost host ∧ PortText port

/-- The four acceptable kinds of input. -/
def ValidDestination (t : List Char) : Prop := (∃ s, SocketText t s) ∨ (∃ ip, IpText t ip) ∨ BareHost t ∨ HostPort t

/-- Characters an address text may use. -/
def addressChars : List Char := ['0', '1', '2', '3', '4', '5', '6', '7', '8', '9', 'a', 'b', 'c', 'd', 'e', 'f', ':', '.']

end Ruroco.Spec
