import Verif.Model.Bytes

namespace Ruroco

@[simp] theorem beBytes_length (n v : Nat) : (beBytes n v).length = n := by
  induction n generalizing v with
  | zero => rfl
  | succ n ih => simp [beBytes, ih]

theorem ofBE_append (xs : List Byte) (b : Byte) : ofBE (xs ++ [b]) = ofBE xs * 256 + b.toNat := by
  simp [ofBE]

theorem ofBE_beBytes (n v : Nat) : ofBE (beBytes n v) = v % 256 ^ n := by
  induction n generalizing v with
  | zero => simp [beBytes, ofBE, Nat.mod_one]
  | succ n ih =>
    rw [beBytes, ofBE_append, ih]
    simp only [BitVec.toNat_ofNat]
    have h : (256:Nat)^(n+1) = 256 * 256^n := by rw [Nat.pow_succ, Nat.mul_comm]
    rw [h, Nat.mod_mul]
    omega

/-- Induction from the right end of a list. -/
theorem list_snoc_induction {α : Type} {P : List α → Prop} (hn : P [])
    (hs : ∀ xs x, P xs → P (xs ++ [x])) (l : List α) : P l := by
  rw [← List.reverse_reverse l]
  induction l.reverse with
  | nil => exact hn
  | cons x xs ih => rw [List.reverse_cons]; exact hs _ _ ih

theorem beBytes_ofBE (bs : List Byte) : beBytes bs.length (ofBE bs) = bs := by
  induction bs using list_snoc_induction with
  | hn => rfl
  | hs xs b ih =>
    rw [List.length_append, List.length_singleton, beBytes, ofBE_append]
    have h1 : (ofBE xs * 256 + b.toNat) / 256 = ofBE xs := by have := b.isLt; omega
    rw [h1, ih]
    congr 2
    apply BitVec.eq_of_toNat_eq
    have := b.isLt
    simp only [BitVec.toNat_ofNat]; omega

theorem ofBE_lt (bs : List Byte) : ofBE bs < 256 ^ bs.length := by
  have h := congrArg ofBE (beBytes_ofBE bs)
  rw [ofBE_beBytes] at h
  rw [← h]
  exact Nat.mod_lt _ (Nat.pow_pos (by decide))

theorem ofBE_inj {a b : List Byte} (hl : a.length = b.length) (h : ofBE a = ofBE b) : a = b := by
  rw [← beBytes_ofBE a, ← beBytes_ofBE b, hl, h]

@[simp] theorem zeros_length (n : Nat) : (zeros n).length = n := by simp [zeros]

theorem ofBE_zeros (n : Nat) : ofBE (zeros n) = 0 := by
  induction n with
  | zero => rfl
  | succ n ih =>
    rw [zeros, List.replicate_succ', ofBE_append]
    simp [zeros] at ih
    simp [ih]

theorem eq_zeros_iff {n : Nat} (bs : List Byte) (hl : bs.length = n) : bs = zeros n ↔ ofBE bs = 0 := by
  constructor
  · rintro rfl; exact ofBE_zeros n
  · intro h; apply ofBE_inj (by simp [hl]); rw [h, ofBE_zeros]

end Ruroco
