import Verif.Model.Crypto
import Verif.Spec.WhiteSpace

/-! # What white space is, in C04 and C49 -/

namespace Ruroco

/-- **C04, C49.** White space is what Unicode calls white space. -/
theorem C04_white_space (c : Char) : isWs c = true ↔ c.toNat ∈ Spec.whiteSpace := by
  simp only [isWs, Spec.whiteSpace, List.mem_cons, List.not_mem_nil, or_false, Bool.or_eq_true, Bool.and_eq_true, decide_eq_true_eq, beq_iff_eq]
  omega

/-- A no-break space is trimmed off a key text, a zero-width space (U+200B) is not. -/
example : trim [Char.ofNat 0xA0, 'a', ' '] = ['a'] ∧ trim [Char.ofNat 0x200B, 'a'] = [Char.ofNat 0x200B, 'a'] := by decide +kernel

end Ruroco
