import Verif.Model.Utf8

/-!
# The number of a command name

/repo/src/common/crypto/mod.rs:37-46 `blake2b_u64`: BLAKE2b with an output of eight bytes and no key (crate `blake2`, here after RFC 7693), of the name as UTF-8, read as a big-endian number. Its error
paths (an impossible output size) are left out. Everywhere else the hash is a parameter; this is the one the programs use.
-/

namespace Ruroco.Blake2b

abbrev Word := BitVec 64

/-- RFC 7693, section 2.6. -/
def iv : List Word :=
  [0x6a09e667f3bcc908, 0xbb67ae8584caa73b, 0x3c6ef372fe94f82b, 0xa54ff53a5f1d36f1, 0x510e527fade682d1, 0x9b05688c2b3e6c1f, 0x1f83d9abfb41bd6b, 0x5be0cd19137e2179]

/-- RFC 7693, section 2.7, for the twelve rounds of BLAKE2b (rounds 10 and 11 use the rows of rounds 0 and 1). -/
def sigma : List (List Nat) :=
  [[0, 1, 2, 3, 4, 5, 6, 7, 8, 9, 10, 11, 12, 13, 14, 15],
   [14, 10, 4, 8, 9, 15, 13, 6, 1, 12, 0, 2, 11, 7, 5, 3],
   [11, 8, 12, 0, 5, 2, 15, 13, 10, 14, 3, 6, 7, 1, 9, 4],
   [7, 9, 3, 1, 13, 12, 11, 14, 2, 6, 5, 10, 4, 0, 15, 8],
   [9, 0, 5, 7, 2, 4, 10, 15, 14, 1, 11, 12, 6, 8, 3, 13],
   [2, 12, 6, 10, 0, 11, 8, 3, 4, 13, 7, 5, 15, 14, 1, 9],
   [12, 5, 1, 15, 14, 13, 4, 10, 0, 7, 6, 3, 9, 2, 8, 11],
   [13, 11, 7, 14, 12, 1, 3, 9, 5, 0, 15, 4, 8, 6, 2, 10],
   [6, 15, 14, 9, 11, 3, 0, 8, 12, 2, 13, 7, 1, 4, 10, 5],
   [10, 2, 8, 4, 7, 6, 1, 5, 15, 11, 9, 14, 3, 12, 13, 0],
   [0, 1, 2, 3, 4, 5, 6, 7, 8, 9, 10, 11, 12, 13, 14, 15],
   [14, 10, 4, 8, 9, 15, 13, 6, 1, 12, 0, 2, 11, 7, 5, 3]]

/-- The `i`-th word. -/
def at_ (v : List Word) (i : Nat) : Word := v.getD i 0

/-- Section 3.1, mixing function `G` on the words `a`, `b`, `c`, `d` of `v`. -/
def mix (v : List Word) (a b c d : Nat) (x y : Word) : List Word :=
  let v := v.set a (at_ v a + at_ v b + x)
  let v := v.set d ((at_ v d ^^^ at_ v a).rotateRight 32)
  let v := v.set c (at_ v c + at_ v d)
  let v := v.set b ((at_ v b ^^^ at_ v c).rotateRight 24)
  let v := v.set a (at_ v a + at_ v b + y)
  let v := v.set d ((at_ v d ^^^ at_ v a).rotateRight 16)
  let v := v.set c (at_ v c + at_ v d)
  v.set b ((at_ v b ^^^ at_ v c).rotateRight 63)

/-- The words mixed in a round: columns, then diagonals. -/
def lanes : List (Nat × Nat × Nat × Nat) :=
  [(0, 4, 8, 12), (1, 5, 9, 13), (2, 6, 10, 14), (3, 7, 11, 15), (0, 5, 10, 15), (1, 6, 11, 12), (2, 7, 8, 13), (3, 4, 9, 14)]

/-- One round, with the words of the message in the order of a row of `sigma`. -/
def round (m : List Word) : List (Nat × Nat × Nat × Nat) → List Nat → List Word → List Word
  | (a, b, c, d) :: ls, i :: j :: s, v => round m ls s (mix v a b c d (at_ m i) (at_ m j))
  | _, _, v => v

/-- Section 3.2, compression function `F`: `t` bytes so far. -/
def compress (h m : List Word) (t : Nat) (last : Bool) : List Word :=
  let v := h ++ iv
  let v := v.set 12 (at_ v 12 ^^^ BitVec.ofNat 64 t)
  let v := v.set 13 (at_ v 13 ^^^ BitVec.ofNat 64 (t / 2 ^ 64))
  let v := if last then v.set 14 (~~~ at_ v 14) else v
  let v := sigma.foldl (fun v s => round m lanes s v) v
  (List.range 8).map (fun i => at_ h i ^^^ at_ v i ^^^ at_ v (i + 8))

/-- A little-endian word from eight bytes. -/
def word (bs : List Byte) : Word := BitVec.ofNat 64 (ofBE bs.reverse)

/-- The sixteen words of a block of 128 bytes, filled with zeros. -/
def block (bs : List Byte) : List Word := (List.range 16).map (fun i => word ((bs ++ zeros (128 - bs.length)).drop (8 * i) |>.take 8))

/-- Section 3.3: all blocks but the last, then the last one. `n`: at most as many blocks are left; `t`: bytes so far. -/
def blocks : (n : Nat) → (h : List Word) → (t : Nat) → List Byte → List Word
  | 0, h, _, _ => h
  | n + 1, h, t, bs =>
    if bs.length ≤ 128 then compress h (block bs) (t + bs.length) true
    else blocks n (compress h (block (bs.take 128)) (t + 128) false) (t + 128) (bs.drop 128)

/-- Section 3.3: the state to begin with, for an output of `n` bytes (1 to 64) and no key. -/
def start (n : Nat) : List Word := iv.set 0 (at_ iv 0 ^^^ BitVec.ofNat 64 (0x01010000 + n))

/-- The output of `n` bytes: the words of the state, little-endian. -/
def digest (n : Nat) (bs : List Byte) : List Byte := ((blocks (bs.length / 128 + 1) (start n) 0 bs).flatMap (fun x => (beBytes 8 x.toNat).reverse)).take n

end Ruroco.Blake2b

namespace Ruroco

/-- /repo/src/common/crypto/mod.rs:37-46 `blake2b_u64`. -/
def nameNumber (name : List Char) : U64 := BitVec.ofNat 64 (ofBE (Blake2b.digest 8 (utf8.enc name)))

end Ruroco
