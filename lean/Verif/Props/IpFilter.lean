import Verif.Model.IpFilter
import Verif.Spec.IpBlocks
import Verif.Lemmas.Ip

/-!
# C27: the refused addresses are exactly the documented blocks
-/

namespace Ruroco

open Spec (NonRoutable nonRoutable4 nonRoutable6 Block4 Block6 SameHost)

/-- A 16-bit number masked to its high bits. -/
theorem and_high (x k : Nat) (hk : k ≤ 16) (hx : x < 2 ^ 16) : x &&& (2 ^ 16 - 2 ^ k) = x / 2 ^ k * 2 ^ k := by
  have hmask : 2 ^ 16 - 2 ^ k = 2 ^ k * (2 ^ (16 - k) - 1) := by
    rw [Nat.mul_sub, Nat.mul_one, ← Nat.pow_add, Nat.add_sub_cancel' hk]
  have hdiv : (x &&& (2 ^ 16 - 2 ^ k)) / 2 ^ k = x / 2 ^ k := by
    rw [Nat.and_div_two_pow, hmask, Nat.mul_div_cancel_left _ (Nat.two_pow_pos k), Nat.and_two_pow_sub_one_eq_mod]
    apply Nat.mod_eq_of_lt
    rw [Nat.div_lt_iff_lt_mul (Nat.two_pow_pos k), ← Nat.pow_add, Nat.sub_add_cancel hk]
    exact hx
  have hmod : (x &&& (2 ^ 16 - 2 ^ k)) % 2 ^ k = 0 := by
    rw [Nat.and_mod_two_pow, hmask, Nat.mul_mod_right, Nat.and_zero]
  have := Nat.div_add_mod (x &&& (2 ^ 16 - 2 ^ k)) (2 ^ k)
  rw [hdiv, hmod, Nat.add_zero] at this
  rw [← this, Nat.mul_comm]

theorem and_ff00 (x : Nat) (hx : x < 65536) : (x &&& 0xff00) = x / 256 * 256 := and_high x 8 (by decide) hx
theorem and_fe00 (x : Nat) (hx : x < 65536) : (x &&& 0xfe00) = x / 512 * 512 := and_high x 9 (by decide) hx
theorem and_ffc0 (x : Nat) (hx : x < 65536) : (x &&& 0xffc0) = x / 64 * 64 := and_high x 6 (by decide) hx

/-- **C27a.** For every address: the filter refuses it iff it lies in one of the documented blocks. -/
theorem C27_refused_iff_in_block (ip : Ip) : isRoutable ip = false ↔ NonRoutable ip := by
  cases ip with
  | v4 a =>
    have ha := a.isLt
    have hoct : octet a 0 = a.toNat / 16777216 ∧ octet a 1 = a.toNat / 65536 % 256 ∧ octet a 2 = a.toNat / 256 % 256 ∧ octet a 3 = a.toNat % 256 := by
      have e0 : (256 : Nat) ^ (3 - 0) = 16777216 := by decide
      have e1 : (256 : Nat) ^ (3 - 1) = 65536 := by decide
      have e2 : (256 : Nat) ^ (3 - 2) = 256 := by decide
      have e3 : (256 : Nat) ^ (3 - 3) = 1 := by decide
      simp only [octet, e0, e1, e2, e3, Nat.div_one]
      exact ⟨Nat.mod_eq_of_lt (by omega), trivial, trivial, trivial⟩
    obtain ⟨h0, h1, h2, h3⟩ := hoct
    simp only [isRoutable, isUnspecified, isLoopback, isMulticast, isV4Rejected, isBroadcast, isPrivate, isLinkLocal4, isDocumentation4, isThisNetwork,
      isSharedCgnat, isIetfAssignment, isBenchmarking, isReserved, Bool.not_eq_false', Bool.or_eq_true, Bool.and_eq_true, beq_iff_eq, decide_eq_true_eq,
      ge_iff_le]
    simp only [NonRoutable, nonRoutable4, Block4.Contains, List.mem_cons, List.not_mem_nil, or_false, exists_eq_or_imp, exists_eq_left]
    generalize octet a 0 = o0 at *
    generalize octet a 1 = o1 at *
    generalize octet a 2 = o2 at *
    generalize octet a 3 = o3 at *
    generalize a.toNat = n at *
    have b8 : ∀ x, n / 2 ^ (32 - 8) = (((x * 256 + 0) * 256 + 0) * 256 + 0) / 2 ^ (32 - 8) ↔ o0 = x := by omega
    have b10 : n / 2 ^ (32 - 10) = (((100 * 256 + 64) * 256 + 0) * 256 + 0) / 2 ^ (32 - 10) ↔ o0 = 100 ∧ 64 ≤ o1 ∧ o1 ≤ 127 := by omega
    have b12 : n / 2 ^ (32 - 12) = (((172 * 256 + 16) * 256 + 0) * 256 + 0) / 2 ^ (32 - 12) ↔ (o0 = 172 ∧ 16 ≤ o1) ∧ o1 ≤ 31 := by omega
    have b15 : n / 2 ^ (32 - 15) = (((198 * 256 + 18) * 256 + 0) * 256 + 0) / 2 ^ (32 - 15) ↔ o0 = 198 ∧ (o1 = 18 ∨ o1 = 19) := by omega
    have b16 : ∀ x y, y < 256 → (n / 2 ^ (32 - 16) = (((x * 256 + y) * 256 + 0) * 256 + 0) / 2 ^ (32 - 16) ↔ o0 = x ∧ o1 = y) := by omega
    have b24 : ∀ x y z, y < 256 → z < 256 →
      (n / 2 ^ (32 - 24) = (((x * 256 + y) * 256 + z) * 256 + 0) / 2 ^ (32 - 24) ↔ (o0 = x ∧ o1 = y) ∧ o2 = z) := by omega
    have bm : n / 2 ^ (32 - 4) = (((224 * 256 + 0) * 256 + 0) * 256 + 0) / 2 ^ (32 - 4) ↔ 224 ≤ o0 ∧ o0 ≤ 239 := by omega
    have br : n / 2 ^ (32 - 4) = (((240 * 256 + 0) * 256 + 0) * 256 + 0) / 2 ^ (32 - 4) ↔ 240 ≤ o0 := by omega
    have hz : n = 0 → o0 = 0 := by omega
    simp only [b8, b10, b12, b15, bm, br, b16 169 254 (by decide), b16 192 168 (by decide), b24 192 0 0 (by decide) (by decide),
      b24 192 0 2 (by decide) (by decide), b24 198 51 100 (by decide) (by decide), b24 203 0 113 (by decide) (by decide)]
    clear b8 b10 b12 b15 b16 b24 bm br h0 h1 h2 h3 ha
    constructor
    · intro h
      rcases h with ((h | h) | h) | h
      · simp [hz h]
      · simp [h]
      · simp [h]
      · rcases h with (((((((h | h) | h) | h) | h) | h) | h) | h) | h
        · simp [h]
        · rcases h with (h | h) | h <;> simp [h]
        · simp [h]
        · rcases h with (h | h) | h <;> simp [h]
        all_goals simp [h]
    · intro h
      rcases h with h | h | h | h | h | h | h | h | h | h | h | h | h | h <;> simp [h]
  | v6 a =>
    have ha := a.isLt
    have hs : segment a 0 < 65536 := Nat.mod_lt _ (by decide)
    simp only [isRoutable, isUnspecified, isLoopback, isMulticast, isV6Rejected, isUniqueLocal, isLinkLocal6, isDocumentation6, and_ff00 _ hs, and_fe00 _ hs,
      and_ffc0 _ hs]
    have h0 : segment a 0 = a.toNat / 2 ^ 112 := by
      have e0 : (65536 : Nat) ^ (7 - 0) = 2 ^ 112 := by decide
      simp only [segment, e0]
      omega
    have h1 : segment a 1 = a.toNat / 2 ^ 96 % 65536 := by
      have e0 : (65536 : Nat) ^ (7 - 1) = 2 ^ 96 := by decide
      simp only [segment, e0]
    simp only [Bool.not_eq_false', Bool.or_eq_true, Bool.and_eq_true, beq_iff_eq]
    simp only [NonRoutable, nonRoutable6, Block6.Contains, List.mem_cons, List.not_mem_nil, or_false, exists_eq_or_imp, exists_eq_left]
    generalize segment a 0 = s0 at *
    generalize segment a 1 = s1 at *
    generalize a.toNat = n at *
    omega

/-- **C27b.** Whatever 16 address bytes arrive, IPv4-mapped notation does not evade the filter: if the address read denotes the same host as an
IPv4 address in a refused block, it is refused. -/
theorem C27_mapped_notation_refused (bytes : List Byte) (a : BitVec 32) (hsame : SameHost (deserializeIp bytes) (.v4 a)) (ha : NonRoutable (.v4 a)) :
    isRoutable (deserializeIp bytes) = false := by
  rw [C27_refused_iff_in_block]
  have hn := normalizeIp_deserializeIp bytes
  cases hd : deserializeIp bytes with
  | v4 b => rw [hd] at hsame; cases hsame; exact ha
  | v6 x =>
    rw [hd] at hsame hn
    simp only [SameHost, Spec.IsMappedOf] at hsame
    exfalso
    have : toV4Mapped x ≠ none := by
      unfold toV4Mapped
      have := a.isLt
      have hp : x.toNat / 2 ^ 32 = 0xffff := by omega
      simp [hp]
    cases h : toV4Mapped x with
    | none => exact this h
    | some b => simp [normalizeIp, h] at hn

/-- `::ffff:127.0.0.1` on the wire is read as 127.0.0.1 and refused. -/
example : SameHost (deserializeIp (serializeIp (.v6 0xffff7f000001))) (.v4 0x7f000001) ∧ NonRoutable (.v4 0x7f000001) :=
  ⟨by rw [deserializeIp_serializeIp]; exact (by decide +kernel : normalizeIp (.v6 0xffff7f000001) = .v4 0x7f000001) ▸ rfl,
    ⟨⟨127, 0, 0, 0, 8⟩, by simp [nonRoutable4], by unfold Block4.Contains; decide⟩⟩

/-- A public address is accepted, and so it lies in no block. -/
example : ¬ NonRoutable (.v4 0x08080808) := by rw [← C27_refused_iff_in_block]; decide

end Ruroco
