import Verif.Model.Client

/-!
# Specification: the bytes of a datagram, of a message to the commander and of the counter file

The tables of /repo/docs/src/architecture/protocol.md, /repo/docs/src/common/protocol.md, /repo/docs/src/client/send.md, /repo/docs/src/common/ipc.md and
/repo/docs/src/client/counter-lock-gen-util.md.
-/

namespace Ruroco.Spec

/-- The bytes `[a:b]`. -/
def field (bs : List Byte) (a b : Nat) : List Byte := (bs.drop a).take (b - a)

/-- A number in `len` bytes, most significant first. -/
def bigEndian (len n : Nat) : List Byte := (List.range len).map (fun i => BitVec.ofNat 8 (n / 256 ^ (len - 1 - i)))

/-- An address in 16 bytes: IPv6 as it is, IPv4 as `::ffff:a.b.c.d`. -/
def addressBytes : Ip → List Byte
  | .v4 a => List.replicate 10 0 ++ [255, 255] ++ bigEndian 4 a.toNat
  | .v6 a => bigEndian 16 a.toNat

/-- A claimed source address, all zeros if there is none. -/
def claimBytes : Option Ip → List Byte
  | some ip => addressBytes ip
  | none => List.replicate 16 0

/-- common/protocol.md:44-51, send.md:147-154: the 58 bytes that are encrypted. -/
structure PlaintextLayout (hash counter : Nat) (strict : Byte) (src : Option Ip) (dst : Ip) (bs : List Byte) : Prop where
  size : bs.length = 58
  version : field bs 0 1 = [1]
  hash : field bs 1 9 = bigEndian 8 hash
  counter : field bs 9 25 = bigEndian 16 counter
  strict : field bs 25 26 = [strict]
  src : field bs 26 42 = claimBytes src
  dst : field bs 42 58 = addressBytes dst

/-- send.md:228-241: the datagram, for the encryption `A` of the plaintext `p` under `key` with the nonce `iv`. -/
structure DatagramLayout (A : Aead) (id key iv p bs : List Byte) : Prop where
  size : bs.length = 94
  keyId : field bs 0 8 = id
  nonce : field bs 8 20 = iv
  tag : field bs 20 36 = (A.enc key iv p).1
  text : field bs 36 94 = (A.enc key iv p).2

/-- ipc.md:19-22: the message from the server to the commander. -/
structure MessageLayout (hash : Nat) (ip : Ip) (bs : List Byte) : Prop where
  size : bs.length = 24
  hash : field bs 0 8 = bigEndian 8 hash
  ip : field bs 8 24 = addressBytes ip

end Ruroco.Spec
