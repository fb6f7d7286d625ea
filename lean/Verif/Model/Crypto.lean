import Verif.Model.Protocol

/-!
# Keys, base64, packet encryption and framing
-/

namespace Ruroco

/-! ## base64 (crate `base64`, engine `general_purpose::STANDARD`)

Alphabet `A-Za-z0-9+/`, padding `=` required and canonical, trailing bits must be zero. -/

/-- Base64 digit for a value below 64. -/
def b64Char (n : Nat) : Char :=
  if n < 26 then Char.ofNat (65 + n)
  else if n < 52 then Char.ofNat (97 + (n - 26))
  else if n < 62 then Char.ofNat (48 + (n - 52))
  else if n = 62 then '+' else '/'

/-- Value of a base64 digit. -/
def b64Val (c : Char) : Option Nat :=
  if 65 ≤ c.toNat ∧ c.toNat ≤ 90 then some (c.toNat - 65)
  else if 97 ≤ c.toNat ∧ c.toNat ≤ 122 then some (c.toNat - 97 + 26)
  else if 48 ≤ c.toNat ∧ c.toNat ≤ 57 then some (c.toNat - 48 + 52)
  else if c = '+' then some 62
  else if c = '/' then some 63
  else none

/-- `STANDARD.encode`. -/
def b64Encode : List Byte → List Char
  | [] => []
  | [a] =>
    let n := a.toNat * 16
    [b64Char (n / 64), b64Char (n % 64), '=', '=']
  | [a, b] =>
    let n := (a.toNat * 256 + b.toNat) * 4
    [b64Char (n / 4096), b64Char (n / 64 % 64), b64Char (n % 64), '=']
  | a :: b :: c :: rest =>
    let n := (a.toNat * 256 + b.toNat) * 256 + c.toNat
    b64Char (n / 262144) :: b64Char (n / 4096 % 64) :: b64Char (n / 64 % 64) :: b64Char (n % 64) :: b64Encode rest

/-- `STANDARD.decode` (`None` for any `DecodeError`). -/
def b64Decode : List Char → Option (List Byte)
  | [] => some []
  | a :: b :: c :: d :: rest =>
    if rest = [] ∧ d = '=' then
      if c = '=' then
        match b64Val a, b64Val b with
        | some x, some y => if y % 16 = 0 then some [BitVec.ofNat 8 (x * 4 + y / 16)] else none
        | _, _ => none
      else
        match b64Val a, b64Val b, b64Val c with
        | some x, some y, some z =>
          let n := (x * 64 + y) * 64 + z
          if z % 4 = 0 then some [BitVec.ofNat 8 (n / 1024), BitVec.ofNat 8 (n / 4)] else none
        | _, _, _ => none
    else
      match b64Val a, b64Val b, b64Val c, b64Val d, b64Decode rest with
      | some x, some y, some z, some w, some tl =>
        let n := ((x * 64 + y) * 64 + z) * 64 + w
        some (BitVec.ofNat 8 (n / 65536) :: BitVec.ofNat 8 (n / 256) :: BitVec.ofNat 8 n :: tl)
      | _, _, _, _, _ => none
  | _ => none

/-! ## Text -/

/-- `char::is_whitespace` (Unicode White_Space). -/
def isWs (c : Char) : Bool :=
  let n := c.toNat
  (9 ≤ n && n ≤ 13) || n == 0x20 || n == 0x85 || n == 0xA0 || n == 0x1680 || (0x2000 ≤ n && n ≤ 0x200A)
    || n == 0x2028 || n == 0x2029 || n == 0x202F || n == 0x205F || n == 0x3000

/-- `str::trim`. -/
def trim (t : List Char) : List Char := ((t.dropWhile isWs).reverse.dropWhile isWs).reverse

/-! ## Key handling -/

/-- /repo/src/common/crypto/handler.rs:9 -/
def KEY_SIZE : Nat := 32

/-- /repo/src/common/crypto/handler.rs:11-15 `CryptoHandler`. -/
structure CryptoHandler where
  key : List Byte
  id : List Byte
deriving DecidableEq, Repr

/-- handler.rs:24-42 `CryptoHandler::create`. -/
def CryptoHandler.create (keyString : List Char) : Except Err CryptoHandler :=
  match b64Decode (trim keyString) with
  | none => .error .badKey
  | some bytes =>
    -- `split_at_checked`
    if KEY_ID_SIZE ≤ bytes.length then
      let id := bytes.take KEY_ID_SIZE
      let key := bytes.drop KEY_ID_SIZE
      if key.length ≠ KEY_SIZE then .error .badKey else .ok { key, id }
    else .error .badKey

/-- handler.rs:47-55 `gen_key`; the two draws from the random generator are parameters (`none`: the generator failed). The
draws fill fixed-size arrays, see the length hypotheses of the theorems. -/
def genKey (rndKey rndId : Option (List Byte)) : Except Err (List Char) :=
  match rndKey, rndId with
  | some key, some id => .ok (b64Encode (id ++ key))
  | _, _ => .error .io

/-! ## Authenticated encryption -/

/-- AES-256-GCM-SIV as provided by OpenSSL, abstract. `enc` returns (tag, ciphertext), `dec` fails on a tag mismatch. -/
structure Aead where
  enc : (key iv plaintext : List Byte) → List Byte × List Byte
  dec : (key iv tag ciphertext : List Byte) → Option (List Byte)

/-- The functional-correctness contract of the cipher for well-sized keys and nonces: 16-byte tag, length-preserving,
decryption inverts encryption. Used as a hypothesis where needed. -/
structure Aead.Correct (A : Aead) : Prop where
  tag_length : ∀ k iv p, k.length = 32 → iv.length = 12 → (A.enc k iv p).1.length = 16
  ct_length : ∀ k iv p, k.length = 32 → iv.length = 12 → (A.enc k iv p).2.length = p.length
  dec_enc : ∀ k iv p, k.length = 32 → iv.length = 12 → A.dec k iv (A.enc k iv p).1 (A.enc k iv p).2 = some p

/-- /repo/src/common/crypto/handler_ops.rs:15-17 -/
def IV_SIZE : Nat := 12
def TAG_SIZE : Nat := 16

/-- handler_ops.rs:32-62 `encrypt`. `rnd` is the draw of the 12-byte IV (`none`: failed). The remaining OpenSSL context calls
are folded into `A.enc` (their failures would be the same `Err`). -/
def CryptoHandler.encrypt (A : Aead) (h : CryptoHandler) (rnd : Option (List Byte)) (plaintext : List Byte) :
    Except Err (List Byte) :=
  match rnd with
  | none => .error .encrypt
  | some iv =>
    let r := A.enc h.key iv plaintext
    if r.2.length ≠ PLAINTEXT_SIZE then .error .encrypt
    else .ok (iv ++ r.1 ++ r.2)

/-- handler_ops.rs:67-92 `decrypt`; the argument is a `[u8; 86]`. -/
def CryptoHandler.decrypt (A : Aead) (h : CryptoHandler) (data : List Byte) : Except Err (List Byte) :=
  let iv := data.take IV_SIZE
  let tag := slice data IV_SIZE (IV_SIZE + TAG_SIZE)
  let ciphertext := data.drop (IV_SIZE + TAG_SIZE)
  match A.dec h.key iv tag ciphertext with
  | none => .error .decrypt
  | some plaintext => if plaintext.length ≠ PLAINTEXT_SIZE then .error .decrypt else .ok plaintext

/-- /repo/src/common/protocol/parser.rs:27-33 `DataParser::encode`. -/
def encode (A : Aead) (h : CryptoHandler) (rnd : Option (List Byte)) (data : List Byte) : Except Err (List Byte) :=
  match h.encrypt A rnd data with
  | .error e => .error e
  | .ok ciphertext => .ok (h.id ++ ciphertext)

/-- parser.rs:38-46 `DataParser::decode`: (key id, ciphertext); the argument is a `[u8; 94]`, so the two `try_from` can not
fail. -/
def decode (data : List Byte) : List Byte × List Byte := (data.take KEY_ID_SIZE, data.drop KEY_ID_SIZE)

end Ruroco
