import Verif.Lemmas.Ip
import Verif.Model.Protocol

namespace Ruroco

theorem slice_length (bs : List Byte) (a b : Nat) (h : b ≤ bs.length) : (slice bs a b).length = b - a := by
  simp [slice]; omega

/-- Any byte string of length at least `b` splits at `a ≤ b`. -/
theorem split3 (bs : List Byte) (a b : Nat) (hab : a ≤ b) :
    bs = bs.take a ++ slice bs a b ++ bs.drop b := by
  unfold slice
  have h1 : bs = bs.take a ++ bs.drop a := (List.take_append_drop a bs).symm
  have h2 : bs.drop a = (bs.drop a).take (b - a) ++ bs.drop b := by
    have := (List.take_append_drop (b - a) (bs.drop a)).symm
    rwa [List.drop_drop, show a + (b - a) = b by omega] at this
  rw [List.append_assoc, ← h2, ← h1]

theorem drop_eq_slice_append (bs : List Byte) (a b : Nat) (hab : a ≤ b) :
    bs.drop a = slice bs a b ++ bs.drop b := by
  unfold slice
  have := (List.take_append_drop (b - a) (bs.drop a)).symm
  rwa [List.drop_drop, show a + (b - a) = b by omega] at this

theorem slice_append_right (xs ys : List Byte) (a b n : Nat) (h : xs.length = n) (hn : n ≤ a) :
    slice (xs ++ ys) a b = slice ys (a - n) (b - n) := by
  unfold slice
  rw [List.drop_append, h, List.drop_eq_nil_of_le (by omega), List.nil_append]
  congr 1; omega

theorem slice_zero_append (xs ys : List Byte) (b : Nat) (h : xs.length = b) :
    slice (xs ++ ys) 0 b = xs := by
  simp [slice, ← h]

theorem U64_ofBE_beBytes (x : U64) : BitVec.ofNat 64 (ofBE (beBytes 8 x.toNat)) = x := by
  rw [ofBE_beBytes]
  apply BitVec.eq_of_toNat_eq
  have := x.isLt
  simp only [BitVec.toNat_ofNat]; omega

theorem U128_ofBE_beBytes (x : U128) : BitVec.ofNat 128 (ofBE (beBytes 16 x.toNat)) = x := by
  rw [ofBE_beBytes]
  apply BitVec.eq_of_toNat_eq
  have := x.isLt
  simp only [BitVec.toNat_ofNat]; omega

theorem beBytes_U64 (bs : List Byte) (h : bs.length = 8) : beBytes 8 (BitVec.ofNat 64 (ofBE bs)).toNat = bs := by
  have hlt := ofBE_lt bs
  rw [h] at hlt
  rw [BitVec.toNat_ofNat, Nat.mod_eq_of_lt (by simpa using hlt), ← h, beBytes_ofBE]

theorem beBytes_U128 (bs : List Byte) (h : bs.length = 16) :
    beBytes 16 (BitVec.ofNat 128 (ofBE bs)).toNat = bs := by
  have hlt := ofBE_lt bs
  rw [h] at hlt
  rw [BitVec.toNat_ofNat, Nat.mod_eq_of_lt (by simpa using hlt), ← h, beBytes_ofBE]

@[simp] theorem serialize_length (d : ClientData) : d.serialize.length = 58 := by
  simp only [ClientData.serialize, List.length_append, List.length_singleton, beBytes_length, serializeIp_length]
  cases d.srcIp <;> simp

/-- What the server reads for a claimed source address. -/
def readSrc : Option Ip → Option Ip
  | none => none
  | some ip => if ip = .v6 0 then none else some (normalizeIp ip)

theorem deserialize_fields (h c : List Byte) (s : Byte) (a b : List Byte)
    (hh : h.length = 8) (hc : c.length = 16) (ha : a.length = 16) :
    ClientData.deserialize ([PROTOCOL_VERSION] ++ h ++ c ++ [s] ++ a ++ b) =
      .ok { cmdHash := BitVec.ofNat 64 (ofBE h), counter := BitVec.ofNat 128 (ofBE c),
            strict := decide (s ≠ 0),
            srcIp := if a ≠ zeros 16 then some (deserializeIp a) else none,
            dstIp := deserializeIp b } := by
  have e1 : slice ([PROTOCOL_VERSION] ++ h ++ c ++ [s] ++ a ++ b) 1 9 = h := by
    simp only [List.append_assoc]
    rw [slice_append_right _ _ 1 9 1 rfl (by omega), slice_zero_append _ _ _ hh]
  have e2 : slice ([PROTOCOL_VERSION] ++ h ++ c ++ [s] ++ a ++ b) 9 25 = c := by
    simp only [List.append_assoc]
    rw [slice_append_right _ _ 9 25 1 rfl (by omega), slice_append_right _ _ _ _ 8 hh (by omega),
      slice_zero_append _ _ _ hc]
  have e3 : slice ([PROTOCOL_VERSION] ++ h ++ c ++ [s] ++ a ++ b) 25 26 = [s] := by
    simp only [List.append_assoc]
    rw [slice_append_right _ _ 25 26 1 rfl (by omega), slice_append_right _ _ _ _ 8 hh (by omega),
      slice_append_right _ _ _ _ 16 hc (by omega), slice_zero_append [s] (a ++ b) (26 - 1 - 8 - 16) rfl]
  have e4 : slice ([PROTOCOL_VERSION] ++ h ++ c ++ [s] ++ a ++ b) 26 42 = a := by
    simp only [List.append_assoc]
    rw [slice_append_right _ _ 26 42 1 rfl (by omega), slice_append_right _ _ _ _ 8 hh (by omega),
      slice_append_right _ _ _ _ 16 hc (by omega), slice_append_right _ _ _ _ 1 rfl (by omega),
      slice_zero_append _ _ _ ha]
  have e5 : ([PROTOCOL_VERSION] ++ h ++ c ++ [s] ++ a ++ b).drop 42 = b := by
    rw [List.drop_append_of_le_length (by simp [hh, hc, ha])]
    rw [List.drop_eq_nil_of_le (by simp [hh, hc, ha])]; rfl
  have hc' : ∀ l, ([PROTOCOL_VERSION] ++ h ++ c ++ [s] ++ a ++ b) = l →
      ∃ r, l = PROTOCOL_VERSION :: r := by
    rintro l rfl; exact ⟨_, rfl⟩
  generalize hl : ([PROTOCOL_VERSION] ++ h ++ c ++ [s] ++ a ++ b) = l at *
  obtain ⟨r, rfl⟩ := hc' l rfl
  simp only [ClientData.deserialize, e1, e2, e3, e4, e5, ne_eq, not_true, if_false]
  simp

theorem deserialize_serialize (d : ClientData) :
    ClientData.deserialize d.serialize =
      .ok { d with srcIp := readSrc d.srcIp, dstIp := normalizeIp d.dstIp } := by
  unfold ClientData.serialize
  rw [deserialize_fields _ _ _ _ _ (by simp) (by simp) (by cases d.srcIp <;> simp)]
  rw [U64_ofBE_beBytes, U128_ofBE_beBytes, deserializeIp_serializeIp]
  cases hs : d.strict <;> cases hi : d.srcIp with
  | none => simp [readSrc]
  | some ip =>
    simp only [readSrc, ne_eq, serializeIp_eq_zeros, deserializeIp_serializeIp]
    by_cases h0 : ip = .v6 0 <;> simp [h0]

/-- Every 58-byte string with the right version splits into its fields. -/
theorem split_fields (bs : List Byte) (hl : bs.length = 58) (hv : bs.head? = some PROTOCOL_VERSION) :
    ∃ h c s a b, h.length = 8 ∧ c.length = 16 ∧ a.length = 16 ∧ b.length = 16 ∧
      bs = [PROTOCOL_VERSION] ++ h ++ c ++ [s] ++ a ++ b := by
  have h1 : bs = slice bs 0 1 ++ bs.drop 1 := by
    simpa using drop_eq_slice_append bs 0 1 (by omega)
  have h2 := drop_eq_slice_append bs 1 9 (by omega)
  have h3 := drop_eq_slice_append bs 9 25 (by omega)
  have h4 := drop_eq_slice_append bs 25 26 (by omega)
  have h5 := drop_eq_slice_append bs 26 42 (by omega)
  have hs : (slice bs 25 26).length = 1 := slice_length _ _ _ (by omega)
  obtain ⟨s, hs⟩ : ∃ s, slice bs 25 26 = [s] := by
    match h : slice bs 25 26, hs with
    | [s], _ => exact ⟨s, rfl⟩
  have hv' : slice bs 0 1 = [PROTOCOL_VERSION] := by
    cases bs with
    | nil => simp at hl
    | cons x xs => simp at hv; simp [slice, hv]
  refine ⟨slice bs 1 9, slice bs 9 25, s, slice bs 26 42, bs.drop 42, slice_length _ _ _ (by omega),
    slice_length _ _ _ (by omega), slice_length _ _ _ (by omega), by simp [hl], ?_⟩
  have : bs = slice bs 0 1 ++ (slice bs 1 9 ++ (slice bs 9 25 ++ (slice bs 25 26 ++ (slice bs 26 42 ++ bs.drop 42)))) := by
    rw [← h5, ← h4, ← h3, ← h2, ← h1]
  rw [hv', hs] at this
  simpa using this

theorem CommanderData.ofBytes_toBytes (d : CommanderData) :
    CommanderData.ofBytes d.toBytes = { d with ip := normalizeIp d.ip } := by
  unfold CommanderData.ofBytes CommanderData.toBytes
  rw [slice_zero_append _ _ _ (by simp), U64_ofBE_beBytes]
  have : List.drop 8 (beBytes 8 d.cmdHash.toNat ++ serializeIp d.ip) = serializeIp d.ip := by
    rw [List.drop_append_of_le_length (by simp), List.drop_eq_nil_of_le (by simp)]; rfl
  rw [this, deserializeIp_serializeIp]

theorem CommanderData.toBytes_ofBytes (bs : List Byte) (hl : bs.length = 24) :
    (CommanderData.ofBytes bs).toBytes = bs := by
  unfold CommanderData.ofBytes CommanderData.toBytes
  rw [beBytes_U64 _ (slice_length _ _ _ (by omega)), serializeIp_deserializeIp _ (by simp [hl])]
  simpa using (drop_eq_slice_append bs 0 8 (by omega)).symm

end Ruroco
