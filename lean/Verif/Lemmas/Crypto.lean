import Verif.Lemmas.Protocol
import Verif.Model.Crypto

namespace Ruroco

theorem b64Val_b64Char (n : Nat) (h : n < 64) : b64Val (b64Char n) = some n := by
  have : ∀ n : Fin 64, b64Val (b64Char n) = some n.val := by decide +kernel
  exact this ⟨n, h⟩

theorem b64Char_ne_pad (n : Nat) (h : n < 64) : b64Char n ≠ '=' := by
  have : ∀ n : Fin 64, b64Char n ≠ '=' := by decide +kernel
  exact this ⟨n, h⟩

theorem b64Char_not_ws (n : Nat) (h : n < 64) : isWs (b64Char n) = false := by
  have : ∀ n : Fin 64, isWs (b64Char n) = false := by decide +kernel
  exact this ⟨n, h⟩

theorem b64Val_some {c : Char} {n : Nat} (h : b64Val c = some n) : n < 64 ∧ b64Char n = c := by
  unfold b64Val at h
  split at h
  · rename_i hr
    simp at h; subst h
    refine ⟨by omega, ?_⟩
    unfold b64Char
    rw [if_pos (by omega), show 65 + (c.toNat - 65) = c.toNat by omega, Char.ofNat_toNat]
  · split at h
    · rename_i hr
      simp at h; subst h
      refine ⟨by omega, ?_⟩
      unfold b64Char
      rw [if_neg (by omega), if_pos (by omega), show 97 + (c.toNat - 97 + 26 - 26) = c.toNat by omega, Char.ofNat_toNat]
    · split at h
      · rename_i hr
        simp at h; subst h
        refine ⟨by omega, ?_⟩
        unfold b64Char
        rw [if_neg (by omega), if_neg (by omega), if_pos (by omega), show 48 + (c.toNat - 48 + 52 - 52) = c.toNat by omega,
          Char.ofNat_toNat]
      · split at h
        · simp at h; subst h; rename_i hc; subst hc; decide
        · split at h
          · simp at h; subst h; rename_i hc; subst hc; decide
          · cases h

theorem b64Val_pad : b64Val '=' = none := by decide

theorem byte_eq (x : Byte) (n : Nat) (h : n % 256 = x.toNat) : BitVec.ofNat 8 n = x := by
  apply BitVec.eq_of_toNat_eq
  simpa using h

theorem b64Decode_b64Encode (bs : List Byte) : b64Decode (b64Encode bs) = some bs := by
  induction bs using b64Encode.induct with
  | case1 => rfl
  | case2 a =>
    have := a.isLt
    simp only [b64Encode, b64Decode]
    rw [b64Val_b64Char _ (by omega), b64Val_b64Char _ (by omega)]
    simp only [and_self, if_true]
    rw [if_pos (by omega), byte_eq a _ (by omega)]
  | case3 a b =>
    have := a.isLt
    have := b.isLt
    simp only [b64Encode, b64Decode]
    rw [b64Val_b64Char _ (by omega), b64Val_b64Char _ (by omega), b64Val_b64Char _ (by omega)]
    simp only [and_self, if_true]
    rw [if_neg (b64Char_ne_pad _ (by omega)), if_pos (by omega), byte_eq a _ (by omega), byte_eq b _ (by omega)]
  | case4 a b c rest ih =>
    have := a.isLt
    have := b.isLt
    have := c.isLt
    simp only [b64Encode, b64Decode]
    rw [if_neg (fun h => b64Char_ne_pad _ (by omega) h.2)]
    rw [b64Val_b64Char _ (by omega), b64Val_b64Char _ (by omega), b64Val_b64Char _ (by omega), b64Val_b64Char _ (by omega), ih]
    simp only
    rw [byte_eq a _ (by omega), byte_eq b _ (by omega), byte_eq c _ (by omega)]

theorem b64Encode_of_b64Decode : ∀ (t : List Char) (bs : List Byte), b64Decode t = some bs → b64Encode bs = t
  | [], bs, h => by simp [b64Decode] at h; subst h; rfl
  | [_], bs, h => by simp [b64Decode] at h
  | [_, _], bs, h => by simp [b64Decode] at h
  | [_, _, _], bs, h => by simp [b64Decode] at h
  | a :: b :: c :: d :: rest, bs, h => by
    rw [b64Decode] at h
    split at h
    · rename_i hr
      obtain ⟨rfl, rfl⟩ := hr
      split at h
      · rename_i hc; subst hc
        split at h
        · rename_i x y hx hy
          obtain ⟨hx1, hx2⟩ := b64Val_some hx
          obtain ⟨hy1, hy2⟩ := b64Val_some hy
          split at h
          · simp at h; subst h
            simp only [b64Encode]
            have e : (BitVec.ofNat 8 (x * 4 + y / 16)).toNat = x * 4 + y / 16 := by simp; omega
            rw [e, show (x * 4 + y / 16) * 16 / 64 = x by omega, show (x * 4 + y / 16) * 16 % 64 = y by omega, hx2, hy2]
          · cases h
        · cases h
      · split at h
        · rename_i x y z hx hy hz
          obtain ⟨hx1, hx2⟩ := b64Val_some hx
          obtain ⟨hy1, hy2⟩ := b64Val_some hy
          obtain ⟨hz1, hz2⟩ := b64Val_some hz
          simp only at h
          split at h
          · simp at h; subst h
            simp only [b64Encode, BitVec.toNat_ofNat]
            rw [← hx2, ← hy2, ← hz2]
            simp only [List.cons.injEq, and_true]
            refine ⟨?_, ?_, ?_⟩ <;> congr 1 <;> omega
          · cases h
        · cases h
    · split at h
      · rename_i x y z w tl hx hy hz hw ht
        obtain ⟨hx1, hx2⟩ := b64Val_some hx
        obtain ⟨hy1, hy2⟩ := b64Val_some hy
        obtain ⟨hz1, hz2⟩ := b64Val_some hz
        obtain ⟨hw1, hw2⟩ := b64Val_some hw
        simp at h; subst h
        simp only [b64Encode, BitVec.toNat_ofNat]
        rw [b64Encode_of_b64Decode _ _ ht, ← hx2, ← hy2, ← hz2, ← hw2]
        simp only [List.cons.injEq, and_true]
        refine ⟨?_, ?_, ?_, ?_⟩ <;> congr 1 <;> omega
      · cases h

theorem b64Encode_no_ws (bs : List Byte) : ∀ c ∈ b64Encode bs, isWs c = false := by
  have hp : isWs '=' = false := by decide
  induction bs using b64Encode.induct with
  | case1 => simp [b64Encode]
  | case2 a =>
    have := a.isLt
    intro c hc
    simp [b64Encode] at hc
    rcases hc with rfl | rfl | rfl
    · exact b64Char_not_ws _ (by omega)
    · exact b64Char_not_ws _ (by omega)
    · exact hp
  | case3 a b =>
    have := a.isLt
    have := b.isLt
    intro c hc
    simp [b64Encode] at hc
    rcases hc with rfl | rfl | rfl | rfl
    · exact b64Char_not_ws _ (by omega)
    · exact b64Char_not_ws _ (by omega)
    · exact b64Char_not_ws _ (by omega)
    · exact hp
  | case4 a b c rest ih =>
    have := a.isLt
    have := b.isLt
    have := c.isLt
    intro c' hc
    simp only [b64Encode, List.mem_cons] at hc
    rcases hc with rfl | rfl | rfl | rfl | hc
    · exact b64Char_not_ws _ (by omega)
    · exact b64Char_not_ws _ (by omega)
    · exact b64Char_not_ws _ (by omega)
    · exact b64Char_not_ws _ (by omega)
    · exact ih _ hc

theorem takeWhile_ws : ∀ (t : List Char), ∀ c ∈ t.takeWhile isWs, isWs c = true
  | [], c, h => by simp at h
  | x :: xs, c, h => by
    rw [List.takeWhile_cons] at h
    split at h
    · rename_i hx
      rcases List.mem_cons.1 h with rfl | h
      · exact hx
      · exact takeWhile_ws xs c h
    · simp at h

theorem dropWhile_append_ws (ws t : List Char) (hws : ∀ c ∈ ws, isWs c = true) :
    (ws ++ t).dropWhile isWs = t.dropWhile isWs := by
  induction ws with
  | nil => rfl
  | cons c cs ih =>
    rw [List.cons_append, List.dropWhile_cons, if_pos (hws c (by simp)), ih (fun c' h => hws c' (by simp [h]))]

theorem dropWhile_no_ws (t : List Char) (ht : ∀ c ∈ t, isWs c = false) : t.dropWhile isWs = t := by
  cases t with
  | nil => rfl
  | cons c cs => rw [List.dropWhile_cons, if_neg (by simp [ht c (by simp)])]

theorem trim_ws (ws t ws' : List Char) (h1 : ∀ c ∈ ws, isWs c = true) (h2 : ∀ c ∈ t, isWs c = false)
    (h3 : ∀ c ∈ ws', isWs c = true) : trim (ws ++ t ++ ws') = t := by
  unfold trim
  rw [List.append_assoc, dropWhile_append_ws _ _ h1]
  cases t with
  | nil =>
    have : ws'.dropWhile isWs = [] := by simpa using dropWhile_append_ws ws' [] h3
    simp [this]
  | cons c cs =>
    rw [List.cons_append, List.dropWhile_cons, if_neg (by simp [h2 c (by simp)]), ← List.cons_append, List.reverse_append,
      dropWhile_append_ws _ _ (by simpa using h3), dropWhile_no_ws _ (by
        intro c' hc'; exact h2 c' (List.mem_reverse.1 hc')), List.reverse_reverse]

/-- Every text is its trimmed core surrounded by white space. -/
theorem trim_split (t : List Char) : ∃ ws ws', (∀ c ∈ ws, isWs c = true) ∧ (∀ c ∈ ws', isWs c = true) ∧ t = ws ++ trim t ++ ws' := by
  have h1 := (List.takeWhile_append_dropWhile (p := isWs) (l := t)).symm
  have h2 := (List.takeWhile_append_dropWhile (p := isWs) (l := (t.dropWhile isWs).reverse)).symm
  refine ⟨t.takeWhile isWs, ((t.dropWhile isWs).reverse.takeWhile isWs).reverse, ?_, ?_, ?_⟩
  · intro c hc; exact takeWhile_ws _ _ hc
  · intro c hc; exact takeWhile_ws _ _ (List.mem_reverse.1 hc)
  · have h3 := congrArg List.reverse h2
    rw [List.reverse_reverse, List.reverse_append] at h3
    rw [List.append_assoc, trim, ← h3, ← h1]

theorem create_ok_iff (t : List Char) (h : CryptoHandler) :
    CryptoHandler.create t = .ok h ↔ trim t = b64Encode (h.id ++ h.key) ∧ h.id.length = 8 ∧ h.key.length = 32 := by
  constructor
  · intro hc
    unfold CryptoHandler.create at hc
    split at hc
    · cases hc
    · rename_i bytes hb
      split at hc
      · rename_i hl
        simp only at hc
        split at hc
        · cases hc
        · rename_i hk
          simp at hc; subst hc
          simp only [List.take_append_drop]
          refine ⟨(b64Encode_of_b64Decode _ _ hb).symm, by simp [KEY_ID_SIZE] at hl ⊢; omega, ?_⟩
          simpa [KEY_SIZE] using hk
      · cases hc
  · rintro ⟨h1, h2, h3⟩
    unfold CryptoHandler.create
    rw [h1, b64Decode_b64Encode]
    have e1 : (h.id ++ h.key).take KEY_ID_SIZE = h.id := by
      rw [List.take_append_of_le_length (by simp [KEY_ID_SIZE, h2]), List.take_of_length_le (by simp [KEY_ID_SIZE, h2])]
    have e2 : (h.id ++ h.key).drop KEY_ID_SIZE = h.key := by
      rw [List.drop_append_of_le_length (by simp [KEY_ID_SIZE, h2]), List.drop_eq_nil_of_le (by simp [KEY_ID_SIZE, h2])]; rfl
    simp only [e1, e2]
    rw [if_pos (by simp [KEY_ID_SIZE, h2]), if_neg (by simp [KEY_SIZE, h3])]

theorem encrypt_ok {A : Aead} (hA : A.Correct) {h : CryptoHandler} (hk : h.key.length = 32) {iv p : List Byte}
    (hiv : iv.length = 12) (hp : p.length = 58) :
    h.encrypt A (some iv) p = .ok (iv ++ (A.enc h.key iv p).1 ++ (A.enc h.key iv p).2) := by
  simp [CryptoHandler.encrypt, hA.ct_length _ _ _ hk hiv, hp, PLAINTEXT_SIZE]

theorem decrypt_parts (A : Aead) (h : CryptoHandler) (iv tag ct : List Byte) (h1 : iv.length = 12) (h2 : tag.length = 16) :
    h.decrypt A (iv ++ tag ++ ct) =
      match A.dec h.key iv tag ct with
      | none => .error .decrypt
      | some p => if p.length ≠ 58 then .error .decrypt else .ok p := by
  have e1 : (iv ++ tag ++ ct).take 12 = iv := by
    rw [List.append_assoc, List.take_append_of_le_length (by omega), List.take_of_length_le (by omega)]
  have e2 : slice (iv ++ tag ++ ct) 12 (12 + 16) = tag := by
    rw [List.append_assoc, slice_append_right _ _ 12 28 12 h1 (by omega), slice_zero_append _ _ _ h2]
  have e3 : (iv ++ tag ++ ct).drop (12 + 16) = ct := by
    rw [List.drop_append_of_le_length (by simp [h1, h2]), List.drop_eq_nil_of_le (by simp [h1, h2])]; rfl
  simp only [CryptoHandler.decrypt, IV_SIZE, TAG_SIZE, e1, e2, e3, PLAINTEXT_SIZE]
  cases A.dec h.key iv tag ct <;> rfl

/-- A toy cipher meeting the contract, for non-vacuity examples only: the tag is a fixed byte pattern, no secrecy at all. -/
def toyAead : Aead where
  enc k iv p := ((k.take 8 ++ iv.take 8), p)
  dec k iv tag ct := if tag = k.take 8 ++ iv.take 8 then some ct else none

theorem toyAead_correct : toyAead.Correct where
  tag_length k iv p hk hiv := by simp [toyAead, hk, hiv]
  ct_length k iv p _ _ := by simp [toyAead]
  dec_enc k iv p _ _ := by simp [toyAead]

end Ruroco
