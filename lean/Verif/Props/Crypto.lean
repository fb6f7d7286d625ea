import Verif.Lemmas.Crypto

/-!
# C03, C04: datagram framing and key text
-/

namespace Ruroco

/-- **C03.** With a cipher meeting its contract, for every loaded key (8-byte id, 32-byte key), every nonce drawn and every
58-byte plaintext: building the datagram succeeds, it is 94 bytes long, starts with the key id, and splitting and decrypting it
with the same key gives back the plaintext. -/
theorem C03_datagram_framing (A : Aead) (hA : A.Correct) (h : CryptoHandler) (hid : h.id.length = 8)
    (hkey : h.key.length = 32) (iv : List Byte) (hiv : iv.length = 12) (p : List Byte) (hp : p.length = 58) :
    ∃ dg, encode A h (some iv) p = .ok dg ∧ dg.length = 94 ∧ dg.take 8 = h.id ∧
      (decode dg).1 = h.id ∧ h.decrypt A (decode dg).2 = .ok p := by
  refine ⟨h.id ++ (iv ++ (A.enc h.key iv p).1 ++ (A.enc h.key iv p).2), by simp [encode, encrypt_ok hA hkey hiv hp], ?_, ?_, ?_, ?_⟩
  · simp [hid, hiv, hA.tag_length _ _ p hkey hiv, hA.ct_length _ _ p hkey hiv, hp]
  · rw [List.take_append_of_le_length (by omega), List.take_of_length_le (by omega)]
  · simp only [decode, KEY_ID_SIZE]
    rw [List.take_append_of_le_length (by omega), List.take_of_length_le (by omega)]
  · simp only [decode, KEY_ID_SIZE]
    rw [List.drop_append_of_le_length (by omega), List.drop_eq_nil_of_le (by omega), List.nil_append,
      decrypt_parts _ _ _ _ _ hiv (hA.tag_length _ _ _ hkey hiv), hA.dec_enc _ _ _ hkey hiv]
    simp [hp]

/-- **C03** without assuming anything of the cipher's lengths: whenever a datagram is produced at all from 12 random bytes and a
16-byte tag, it has 94 bytes, whatever the request. -/
theorem C03_size_never_varies (A : Aead) (htag : ∀ k iv p, (A.enc k iv p).1.length = 16) (h : CryptoHandler)
    (hid : h.id.length = 8) (iv p dg : List Byte) (hiv : iv.length = 12) (he : encode A h (some iv) p = .ok dg) :
    dg.length = 94 := by
  unfold encode CryptoHandler.encrypt at he
  simp only at he
  split at he
  · cases he
  · rename_i ct hc
    split at hc
    · cases hc
    · rename_i hl
      simp at hc he
      subst hc; subst he
      simp [PLAINTEXT_SIZE] at hl
      simp [hid, hiv, htag, hl]

/-- Decrypting never yields anything but 58 bytes. -/
theorem C03_plaintext_size (A : Aead) (h : CryptoHandler) (data p : List Byte) (hd : h.decrypt A data = .ok p) :
    p.length = 58 := by
  unfold CryptoHandler.decrypt at hd
  simp only at hd
  split at hd
  · cases hd
  · split at hd
    · cases hd
    · rename_i hl
      simp at hd; subst hd
      simpa [PLAINTEXT_SIZE] using hl

/-- Non-vacuity: a concrete key, nonce and request with a cipher meeting the contract. -/
example : ∃ dg, encode toyAead ⟨List.replicate 32 7, [1, 2, 3, 4, 5, 6, 7, 8]⟩ (some (List.replicate 12 9)) (1 :: zeros 57) = .ok dg
    ∧ dg.length = 94 :=
  let ⟨dg, h1, h2, _⟩ := C03_datagram_framing toyAead toyAead_correct ⟨List.replicate 32 7, [1, 2, 3, 4, 5, 6, 7, 8]⟩ rfl
    (by simp) (List.replicate 12 9) (by simp) (1 :: zeros 57) (by simp)
  ⟨dg, h1, h2⟩

/-- **C04a.** Generated key text, stored with any surrounding white space, loads as exactly the generated id and key. -/
theorem C04_key_text_round_trip (key id : List Byte) (hk : key.length = 32) (hi : id.length = 8) (before after : List Char)
    (hb : ∀ c ∈ before, isWs c = true) (ha : ∀ c ∈ after, isWs c = true) :
    ∃ t, genKey (some key) (some id) = .ok t ∧ CryptoHandler.create (before ++ t ++ after) = .ok { key, id } := by
  refine ⟨_, rfl, (create_ok_iff _ _).2 ⟨?_, hi, hk⟩⟩
  exact trim_ws _ _ _ hb (b64Encode_no_ws _) ha

/-- **C04b.** A text is accepted as a key exactly when it is, up to surrounding white space, the canonical base64 text of 40
bytes; these are then the id (8) and the key (32). In particular no two different keys share a text, and trailing bits, missing
or extra padding, other characters or lengths are refused. -/
theorem C04_key_accepted_iff (t : List Char) (h : CryptoHandler) :
    CryptoHandler.create t = .ok h ↔
      ∃ before after, (∀ c ∈ before, isWs c = true) ∧ (∀ c ∈ after, isWs c = true) ∧
        t = before ++ b64Encode (h.id ++ h.key) ++ after ∧ h.id.length = 8 ∧ h.key.length = 32 := by
  rw [create_ok_iff]
  constructor
  · rintro ⟨h1, h2, h3⟩
    obtain ⟨ws, ws', hw, hw', ht⟩ := trim_split t
    rw [h1] at ht
    exact ⟨ws, ws', hw, hw', ht, h2, h3⟩
  · rintro ⟨b, a, hb, ha, rfl, h2, h3⟩
    exact ⟨trim_ws _ _ _ hb (b64Encode_no_ws _) ha, h2, h3⟩

/-- **C04c.** The text form is canonical base64: decoding inverts encoding for every byte string, and every accepted text is the
encoding of what it decodes to. -/
theorem C04_base64_canonical (bs : List Byte) (t : List Char) :
    b64Decode (b64Encode bs) = some bs ∧ (b64Decode t = some bs → t = b64Encode bs) :=
  ⟨b64Decode_b64Encode bs, fun h => (b64Encode_of_b64Decode t bs h).symm⟩

example : b64Encode [0x4d, 0x61, 0x6e, 0x4d] = "TWFuTQ==".toList := by decide +kernel
example : b64Decode "TWFuTR==".toList = none := by decide +kernel
example : b64Decode "TWFuTQ".toList = none := by decide +kernel
example : (CryptoHandler.create (" ".toList ++ b64Encode (List.replicate 8 1 ++ List.replicate 32 2) ++ "\n".toList)) =
    .ok ⟨List.replicate 32 2, List.replicate 8 1⟩ := by decide +kernel
example : CryptoHandler.create (b64Encode (List.replicate 41 1)) = .error .badKey := by decide +kernel

end Ruroco
