import Verif.Lemmas.Bytes
import Verif.Spec.Ip

namespace Ruroco

theorem v4ToMapped_toNat (a : BitVec 32) : (v4ToMapped a).toNat = 0xffff * 2 ^ 32 + a.toNat := by
  have := a.isLt
  simp only [v4ToMapped, BitVec.toNat_ofNat]
  omega

theorem toV4Mapped_eq_some {x : BitVec 128} {a : BitVec 32} :
    toV4Mapped x = some a ↔ x.toNat = 0xffff * 2 ^ 32 + a.toNat := by
  have := a.isLt
  unfold toV4Mapped
  constructor
  · intro h
    split at h
    · rename_i hx
      simp only [Option.some.injEq] at h
      subst h
      simp only [BitVec.toNat_ofNat]; omega
    · cases h
  · intro h
    rw [if_pos (by omega)]
    congr 1
    apply BitVec.eq_of_toNat_eq
    simp only [BitVec.toNat_ofNat]; omega

theorem toV4Mapped_v4ToMapped (a : BitVec 32) : toV4Mapped (v4ToMapped a) = some a :=
  toV4Mapped_eq_some.2 (v4ToMapped_toNat a)

@[simp] theorem serializeIp_length (ip : Ip) : (serializeIp ip).length = 16 := by
  cases ip <;> simp [serializeIp]

theorem deserializeIp_serializeIp (ip : Ip) : deserializeIp (serializeIp ip) = normalizeIp ip := by
  cases ip with
  | v4 a =>
    have h : BitVec.ofNat 128 ((v4ToMapped a).toNat % 256 ^ 16) = v4ToMapped a := by
      apply BitVec.eq_of_toNat_eq
      have := (v4ToMapped a).isLt
      simp only [BitVec.toNat_ofNat]; omega
    simp only [deserializeIp, serializeIp, ofBE_beBytes, h, normalizeIp, toV4Mapped_v4ToMapped]
  | v6 a =>
    have h : BitVec.ofNat 128 (a.toNat % 256 ^ 16) = a := by
      apply BitVec.eq_of_toNat_eq
      have := a.isLt
      simp only [BitVec.toNat_ofNat]; omega
    simp only [deserializeIp, serializeIp, ofBE_beBytes, h]

theorem serializeIp_deserializeIp (bs : List Byte) (hl : bs.length = 16) : serializeIp (deserializeIp bs) = bs := by
  have hlt := ofBE_lt bs
  rw [hl] at hlt
  have hb : beBytes 16 (ofBE bs) = bs := by rw [← hl]; exact beBytes_ofBE bs
  have hn : (BitVec.ofNat 128 (ofBE bs)).toNat = ofBE bs := by
    simp only [BitVec.toNat_ofNat]; omega
  unfold deserializeIp normalizeIp
  simp only
  split
  · rename_i a ha
    rw [toV4Mapped_eq_some, hn] at ha
    rw [serializeIp, v4ToMapped_toNat, ← ha, hb]
  · rw [serializeIp, hn, hb]

theorem normalizeIp_idem (ip : Ip) : normalizeIp (normalizeIp ip) = normalizeIp ip := by
  cases ip with
  | v4 a => rfl
  | v6 x =>
    cases h : toV4Mapped x with
    | some a => simp [normalizeIp, h]
    | none => simp [normalizeIp, h]

theorem normalizeIp_deserializeIp (bs : List Byte) : normalizeIp (deserializeIp bs) = deserializeIp bs :=
  normalizeIp_idem _

theorem serializeIp_normalizeIp (ip : Ip) : serializeIp (normalizeIp ip) = serializeIp ip := by
  rw [← deserializeIp_serializeIp, serializeIp_deserializeIp _ (by simp)]

theorem serializeIp_inj {a b : Ip} : serializeIp a = serializeIp b ↔ normalizeIp a = normalizeIp b := by
  constructor
  · intro h; rw [← deserializeIp_serializeIp, ← deserializeIp_serializeIp, h]
  · intro h; rw [← serializeIp_normalizeIp a, ← serializeIp_normalizeIp b, h]

theorem serializeIp_eq_zeros {ip : Ip} : serializeIp ip = zeros 16 ↔ ip = .v6 0 := by
  constructor
  · intro h
    have h2 := congrArg ofBE h
    rw [ofBE_zeros] at h2
    cases ip with
    | v4 a =>
      simp only [serializeIp, ofBE_beBytes, v4ToMapped_toNat] at h2
      have := a.isLt
      omega
    | v6 x =>
      simp only [serializeIp, ofBE_beBytes] at h2
      have := x.isLt
      congr 1
      apply BitVec.eq_of_toNat_eq
      show x.toNat = 0; omega
  · rintro rfl
    rw [eq_zeros_iff _ (by simp)]
    simp [serializeIp, ofBE_beBytes]

theorem normalizeIp_eq_iff_sameHost (a b : Ip) : normalizeIp a = normalizeIp b ↔ Spec.SameHost a b := by
  cases a with
  | v4 a =>
    cases b with
    | v4 b => simp [normalizeIp, Spec.SameHost]
    | v6 y =>
      simp only [normalizeIp, Spec.SameHost, Spec.IsMappedOf]
      rw [← toV4Mapped_eq_some]
      cases h : toV4Mapped y <;> simp
      exact eq_comm
  | v6 x =>
    cases b with
    | v4 b =>
      simp only [normalizeIp, Spec.SameHost, Spec.IsMappedOf]
      rw [← toV4Mapped_eq_some]
      cases h : toV4Mapped x <;> simp
    | v6 y =>
      simp only [normalizeIp, Spec.SameHost]
      cases hx : toV4Mapped x <;> cases hy : toV4Mapped y <;> simp
      · rintro rfl; rw [hx] at hy; cases hy
      · rintro rfl; rw [hx] at hy; cases hy
      · rename_i p q
        rw [toV4Mapped_eq_some] at hx hy
        constructor
        · rintro rfl; apply BitVec.eq_of_toNat_eq; omega
        · rintro rfl; apply BitVec.eq_of_toNat_eq; omega

end Ruroco
