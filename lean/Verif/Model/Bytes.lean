/-!
# Bytes and big-endian integers

Models the Rust primitives `u8`, `[u8; N]`, `uN::to_be_bytes`, `uN::from_be_bytes` that the wire and file formats of
ruroco are built from. Byte arrays are `List Byte`; the length of a Rust array type is stated where it matters.
-/

namespace Ruroco

/-- Rust `u8`. -/
abbrev Byte := BitVec 8
/-- Rust `u64`. -/
abbrev U64 := BitVec 64
/-- Rust `u128`. -/
abbrev U128 := BitVec 128

/-- The `n` low-order bytes of `v`, most significant first.
Models `to_be_bytes` (std) as used in /repo/src/common/protocol/client_data.rs:48-49, ipc.rs:24, counter.rs:58. -/
def beBytes : Nat → Nat → List Byte
  | 0, _ => []
  | n + 1, v => beBytes n (v / 256) ++ [BitVec.ofNat 8 v]

/-- The number a big-endian byte string denotes.
Models `from_be_bytes` (std) as used in client_data.rs:79-80, ipc.rs:38, counter.rs:65. -/
def ofBE (bs : List Byte) : Nat := bs.foldl (fun acc b => acc * 256 + b.toNat) 0

/-- `data[a..b]` for an in-range slice. -/
def slice (bs : List Byte) (a b : Nat) : List Byte := (bs.drop a).take (b - a)

/-- `[0u8; n]`. -/
def zeros (n : Nat) : List Byte := List.replicate n 0

end Ruroco
