import Verif.Spec.AddressText
import Verif.Lemmas.IpText

/-! # C110: which texts are addresses -/

namespace Ruroco

open Spec (DigitIs Numeral decimalText V4Text GroupText GroupsText MaybeGroups groupsValue V6Text IpText PortDigits ScopeText SocketText)

/-! ## Digits and numbers -/

theorem char_eq {c : Char} {n : Nat} (h : c.toNat = n) : c = Char.ofNat n := by rw [← h, Char.ofNat_toNat]

theorem toDigit_iff {radix : Nat} (hr : radix ≤ 16) {c : Char} {d : Nat} : toDigit radix c = some d ↔ DigitIs c d ∧ d < radix := by
  constructor
  · intro h
    have key : d < radix ∧ ((48 ≤ c.toNat ∧ c.toNat ≤ 57 ∧ d = c.toNat - 48) ∨ (97 ≤ c.toNat ∧ c.toNat ≤ 122 ∧ d = c.toNat - 97 + 10) ∨ (65 ≤ c.toNat ∧ c.toNat ≤ 90 ∧ d = c.toNat - 65 + 10)) := by
      unfold toDigit at h
      simp only at h
      split at h
      · rename_i v hv
        split at h
        · rename_i hlt
          cases h
          refine ⟨hlt, ?_⟩
          split at hv
          · cases hv; left; omega
          · split at hv
            · cases hv; right; left; omega
            · split at hv
              · cases hv; right; right; omega
              · cases hv
        · cases h
      · cases h
    obtain ⟨h1, h2⟩ := key
    refine ⟨?_, h1⟩
    have h16 : d < 16 := by omega
    have hcase : c = Char.ofNat (48 + d) ∧ d < 10 ∨ c = Char.ofNat (97 + d - 10) ∧ 10 ≤ d ∨ c = Char.ofNat (65 + d - 10) ∧ 10 ≤ d := by
      rcases h2 with h | h | h
      · exact .inl ⟨char_eq (by omega), by omega⟩
      · exact .inr (.inl ⟨char_eq (by omega), by omega⟩)
      · exact .inr (.inr ⟨char_eq (by omega), by omega⟩)
    clear h1 h2 h hr
    have e : d = 0 ∨ d = 1 ∨ d = 2 ∨ d = 3 ∨ d = 4 ∨ d = 5 ∨ d = 6 ∨ d = 7 ∨ d = 8 ∨ d = 9 ∨ d = 10 ∨ d = 11 ∨ d = 12 ∨ d = 13 ∨ d = 14 ∨ d = 15 := by omega
    unfold DigitIs
    rcases e with rfl | rfl | rfl | rfl | rfl | rfl | rfl | rfl | rfl | rfl | rfl | rfl | rfl | rfl | rfl | rfl <;>
      rcases hcase with ⟨rfl, h⟩ | ⟨rfl, h⟩ | ⟨rfl, h⟩ <;> first | omega | decide
  · rintro ⟨h, hd⟩
    have hv : toDigit 16 c = some d := by
      have h16 : d < 16 := by omega
      clear hd hr
      have e : d = 0 ∨ d = 1 ∨ d = 2 ∨ d = 3 ∨ d = 4 ∨ d = 5 ∨ d = 6 ∨ d = 7 ∨ d = 8 ∨ d = 9 ∨ d = 10 ∨ d = 11 ∨ d = 12 ∨ d = 13 ∨ d = 14 ∨ d = 15 := by omega
      unfold DigitIs at h
      rcases e with rfl | rfl | rfl | rfl | rfl | rfl | rfl | rfl | rfl | rfl | rfl | rfl | rfl | rfl | rfl | rfl <;>
        rcases h with h | h <;> cases h <;> decide
    unfold toDigit at hv ⊢
    simp only at hv ⊢
    split at hv
    · rename_i v hv'
      split at hv
      · cases hv
        rw [if_pos hd]
      · cases hv
    · cases hv

/-- The grammar's numbers and the parser's. -/
theorem numeral_iff {radix : Nat} (hr : radix ≤ 16) {t : List Char} {n : Nat} : Numeral radix t n ↔ t ≠ [] ∧ (∀ c ∈ t, (toDigit radix c).isSome = true) ∧ ofDigits radix t = n := by
  constructor
  · intro h
    induction h with
    | one c d hc hd =>
      have := (toDigit_iff hr).2 ⟨hc, hd⟩
      refine ⟨by simp, fun x hx => ?_, ?_⟩
      · rw [List.mem_singleton.1 hx, this]; rfl
      · simp [ofDigits, this]
    | more t n c d ht hc hd ih =>
      have := (toDigit_iff hr).2 ⟨hc, hd⟩
      obtain ⟨_, i2, i3⟩ := ih
      refine ⟨by simp, fun x hx => ?_, ?_⟩
      · rcases List.mem_append.1 hx with hx | hx
        · exact i2 x hx
        · rw [List.mem_singleton.1 hx, this]; rfl
      · rw [ofDigits_append, i3, this]
        rfl
  · rintro ⟨hne, hall, rfl⟩
    suffices H : ∀ k (t : List Char), t.length = k → t ≠ [] → (∀ c ∈ t, (toDigit radix c).isSome = true) → Numeral radix t (ofDigits radix t) from H _ t rfl hne hall
    clear hne hall t
    intro k
    induction k with
    | zero => intro t hl hne; exact absurd (List.length_eq_zero_iff.1 hl) hne
    | succ k ih =>
      intro t hl hne hall
      obtain ⟨u, c, rfl⟩ : ∃ u c, t = u ++ [c] := ⟨t.dropLast, t.getLast hne, (List.dropLast_concat_getLast hne).symm⟩
      obtain ⟨d, hd⟩ := Option.isSome_iff_exists.1 (hall c (by simp))
      obtain ⟨hc, hlt⟩ := (toDigit_iff hr).1 hd
      cases u with
      | nil =>
        have : ofDigits radix ([] ++ [c]) = d := by simp [ofDigits, hd]
        rw [this]
        exact .one c d hc hlt
      | cons x u =>
        rw [ofDigits_append, hd]
        exact .more _ _ c d (ih (x :: u) (by simpa using hl) (by simp) (fun c h => hall c (List.mem_append_left _ h))) hc hlt

theorem numeral_ne_nil {radix : Nat} {t : List Char} {n : Nat} (h : Numeral radix t n) : t ≠ [] := by cases h <;> simp

theorem mem_takeWhile_holds {p : Char → Bool} {t : List Char} {c : Char} (h : c ∈ t.takeWhile p) : p c = true := by
  induction t with
  | nil => cases h
  | cons x t ih =>
    rw [List.takeWhile_cons] at h
    split at h
    · rcases List.mem_cons.1 h with rfl | h
      · assumption
      · exact ih h
    · cases h

/-- What `readNumber` reads. -/
theorem readNumber_iff {radix : Nat} (hr : radix ≤ 16) {m : Option Nat} {az : Bool} {bound : Nat} {t r : List Char} {n : Nat} :
    readNumber radix m az bound t = some (n, r) ↔
      ∃ u, t = u ++ r ∧ NoDigit radix r ∧ Numeral radix u n ∧ (∀ k, m = some k → u.length ≤ k) ∧ n < bound ∧ (az = false → u.head? = some '0' → u.length ≤ 1) := by
  have hnd : ∀ t : List Char, NoDigit radix (t.dropWhile (fun c => (toDigit radix c).isSome)) := by
    intro t
    induction t with
    | nil => exact noDigit_nil
    | cons c t ih =>
      rw [List.dropWhile_cons]
      split
      · exact ih
      · rename_i h
        exact noDigit_cons (by simpa using h)
  constructor
  · intro h
    unfold readNumber at h
    simp only at h
    split at h
    · cases h
    · rename_i hm
      split at h
      · cases h
      · rename_i hb
        split at h
        · cases h
        · rename_i hne
          split at h
          · cases h
          · rename_i hz
            have hdrop : t.drop (t.takeWhile (fun c => (toDigit radix c).isSome)).length = t.dropWhile (fun c => (toDigit radix c).isSome) := by
              have := congrArg (List.drop (t.takeWhile (fun c => (toDigit radix c).isSome)).length) (List.takeWhile_append_dropWhile (p := fun c => (toDigit radix c).isSome) (l := t))
              rw [List.drop_left] at this
              exact this.symm
            rw [hdrop] at h
            cases h
            refine ⟨_, List.takeWhile_append_dropWhile.symm, hnd t, (numeral_iff hr).2 ⟨hne, fun c hc => ?_, rfl⟩, ?_, by omega, ?_⟩
            · exact mem_takeWhile_holds hc
            · intro k hk
              subst hk
              simpa using hm
            · intro haz h0
              subst haz
              simp only [Bool.not_false, Bool.true_and, Bool.and_eq_true, beq_iff_eq, decide_eq_true_eq, not_and] at hz
              have := hz h0
              omega
  · rintro ⟨u, rfl, hnr, hn, hm, hb, hz⟩
    obtain ⟨hne, hall, hval⟩ := (numeral_iff hr).1 hn
    have htw : (u ++ r).takeWhile (fun c => (toDigit radix c).isSome) = u := takeWhile_append_stop hall (fun c hc => by simp [hnr c hc])
    unfold readNumber
    simp only [htw, hval]
    rw [if_neg, if_neg (by omega), if_neg hne, if_neg, List.drop_left]
    · intro h
      simp only [Bool.and_eq_true, Bool.not_eq_true', beq_iff_eq, decide_eq_true_eq] at h
      have := hz h.1.1 h.1.2
      omega
    · cases m with
      | none => simp
      | some k =>
        have := hm k rfl
        simp; omega

/-- A decimal number without leading zeros is the usual text. -/
theorem numeral_canonical {t : List Char} {n : Nat} (h : Numeral 10 t n) (h0 : t.head? = some '0' → t.length ≤ 1) : t = decimalText n := by
  have hdig : ∀ c d, DigitIs c d → d < 10 → c = Nat.digitChar d := by
    intro c d hc hd
    have e : d = 0 ∨ d = 1 ∨ d = 2 ∨ d = 3 ∨ d = 4 ∨ d = 5 ∨ d = 6 ∨ d = 7 ∨ d = 8 ∨ d = 9 := by omega
    unfold DigitIs at hc
    rcases e with rfl | rfl | rfl | rfl | rfl | rfl | rfl | rfl | rfl | rfl <;> rcases hc with hc | hc <;> cases hc <;> rfl
  induction h with
  | one c d hc hd =>
    rw [hdig c d hc hd]
    exact (Nat.toDigits_of_lt_base hd).symm
  | more t n c d ht hc hd ih =>
    have hne := numeral_ne_nil ht
    have hh : (t ++ [c]).head? = t.head? := by
      cases t with
      | nil => exact absurd rfl hne
      | cons x t => rfl
    have hlen : 0 < t.length := List.length_pos_iff.2 hne
    have hn0 : t.head? ≠ some '0' := by
      intro he
      have := h0 (by rw [hh]; exact he)
      rw [List.length_append, List.length_singleton] at this
      omega
    have ht' := ih (fun he => absurd he hn0)
    have hpos : 0 < n := by
      rcases Nat.eq_zero_or_pos n with h | h
      · subst h
        rw [ht'] at hn0
        exact absurd rfl hn0
      · exact h
    rw [hdig c d hc hd]
    unfold decimalText
    rw [Nat.toDigits_of_base_le (by omega) (by omega : 10 ≤ n * 10 + d)]
    rw [show (n * 10 + d) / 10 = n by omega, show (n * 10 + d) % 10 = d by omega, ht']
    rfl

theorem numeral_show (n : Nat) : Numeral 10 (decimalText n) n :=
  (numeral_iff (by omega)).2 ⟨show_ne_nil 10 n, fun c hc => by
    obtain ⟨d, hd, rfl⟩ := isDigit_of_mem_show (by omega) (by omega) c hc
    simp [toDigit_digitChar (by omega) hd], ofDigits_show (by omega) (by omega)⟩

/-! ## IPv4 -/

theorem readOctet_iff {t r : List Char} {n : Nat} : readOctet t = some (n, r) ↔ n < 256 ∧ t = decimalText n ++ r ∧ NoDigit 10 r := by
  constructor
  · intro h
    obtain ⟨u, rfl, hr, hn, _, hb, hz⟩ := (readNumber_iff (by omega)).1 h
    exact ⟨hb, by rw [← numeral_canonical hn (hz rfl)], hr⟩
  · rintro ⟨hn, rfl, hr⟩
    exact readOctet_show hn hr

theorem readChar_iff {c : Char} {t r : List Char} : readChar c t = some r ↔ t = c :: r := by
  cases t with
  | nil => simp [readChar]
  | cons d t =>
    rw [readChar.eq_2]
    split
    · rename_i h; subst h; simp
    · rename_i h
      simp [h]

theorem readSep_zero {α : Type} {sep : Char} {inner : List Char → Option (α × List Char)} {t : List Char} : readSep sep 0 inner t = inner t := rfl

theorem readSep_succ {α : Type} {sep : Char} {i : Nat} {inner : List Char → Option (α × List Char)} {t : List Char} {x : α × List Char} :
    readSep sep (i + 1) inner t = some x ↔ ∃ u, t = sep :: u ∧ inner u = some x := by
  unfold readSep
  rw [if_neg (Nat.succ_ne_zero i)]
  split
  · rename_i u hu
    have := readChar_iff.1 hu
    subst this
    simp
  · rename_i hu
    simp only [reduceCtorEq, false_iff]
    rintro ⟨u, rfl, _⟩
    rw [readChar_iff.2 rfl] at hu
    cases hu

theorem readIpv4_iff {t r : List Char} {v : Nat} : readIpv4 t = some (v, r) ↔ ∃ u, t = u ++ r ∧ V4Text u v ∧ NoDigit 10 r := by
  constructor
  · intro h
    unfold readIpv4 at h
    cases h1 : readSep '.' 0 readOctet t with
    | none => rw [h1] at h; cases h
    | some x1 =>
      obtain ⟨a, t1⟩ := x1
      rw [h1] at h
      simp only at h
      cases h2 : readSep '.' 1 readOctet t1 with
      | none => rw [h2] at h; cases h
      | some x2 =>
        obtain ⟨b, t2⟩ := x2
        rw [h2] at h
        simp only at h
        cases h3 : readSep '.' 2 readOctet t2 with
        | none => rw [h3] at h; cases h
        | some x3 =>
          obtain ⟨c, t3⟩ := x3
          rw [h3] at h
          simp only at h
          cases h4 : readSep '.' 3 readOctet t3 with
          | none => rw [h4] at h; cases h
          | some x4 =>
            obtain ⟨d, t4⟩ := x4
            rw [h4] at h
            simp only [Option.some.injEq, Prod.mk.injEq] at h
            obtain ⟨rfl, rfl⟩ := h
            rw [readSep_zero] at h1
            obtain ⟨k1, rfl, _⟩ := readOctet_iff.1 h1
            obtain ⟨u2, rfl, h2⟩ := readSep_succ.1 h2
            obtain ⟨k2, rfl, _⟩ := readOctet_iff.1 h2
            obtain ⟨u3, rfl, h3⟩ := readSep_succ.1 h3
            obtain ⟨k3, rfl, _⟩ := readOctet_iff.1 h3
            obtain ⟨u4, rfl, h4⟩ := readSep_succ.1 h4
            obtain ⟨k4, rfl, k5⟩ := readOctet_iff.1 h4
            exact ⟨_, by simp only [List.append_assoc, List.cons_append], ⟨a, b, c, d, k1, k2, k3, k4, rfl, rfl⟩, k5⟩
  · rintro ⟨u, rfl, ⟨a, b, c, d, ha, hb, hc, hd, rfl, rfl⟩, hr⟩
    have hdot : ∀ t, NoDigit 10 ('.' :: t) := fun t => noDigit_cons (by decide)
    unfold readIpv4
    simp only [List.append_assoc, List.cons_append]
    rw [readSep_zero, readOctet_iff.2 ⟨ha, rfl, hdot _⟩]
    simp only
    rw [readSep_succ.2 ⟨_, rfl, readOctet_iff.2 ⟨hb, rfl, hdot _⟩⟩]
    simp only
    rw [readSep_succ.2 ⟨_, rfl, readOctet_iff.2 ⟨hc, rfl, hdot _⟩⟩]
    simp only
    rw [readSep_succ.2 ⟨_, rfl, readOctet_iff.2 ⟨hd, rfl, hr⟩⟩]

/-! ## IPv6 -/

theorem readGroup_iff {t r : List Char} {n : Nat} : readGroup t = some (n, r) ↔ ∃ u, t = u ++ r ∧ GroupText u n ∧ NoDigit 16 r := by
  constructor
  · intro h
    obtain ⟨u, rfl, hr, hn, hm, _, _⟩ := (readNumber_iff (by omega)).1 h
    exact ⟨u, rfl, ⟨hn, hm 4 rfl⟩, hr⟩
  · rintro ⟨u, rfl, ⟨hn, hl⟩, hr⟩
    refine (readNumber_iff (by omega)).2 ⟨u, rfl, hr, hn, by rintro k ⟨⟩; exact hl, ?_, nofun⟩
    have hlt : ∀ {u : List Char} {n : Nat}, Numeral 16 u n → n < 16 ^ u.length := by
      intro u n h
      induction h with
      | one c d hc hd => simpa using hd
      | more t n c d ht hc hd ih =>
        rw [List.length_append, List.length_singleton, Nat.pow_succ]
        omega
    exact Nat.lt_of_lt_of_le (hlt hn) (Nat.pow_le_pow_right (by omega) hl)

/-- `u`, after a colon unless it is the first. -/
def afterSep (i : Nat) (u : List Char) : List Char := if i = 0 then u else ':' :: u

theorem readSep_iff {α : Type} {i : Nat} {inner : List Char → Option (α × List Char)} {t : List Char} {x : α × List Char} :
    readSep ':' i inner t = some x ↔ ∃ u, t = afterSep i u ∧ inner u = some x := by
  cases i with
  | zero => rw [readSep_zero]; simp [afterSep]
  | succ i => rw [readSep_succ]; simp [afterSep]

theorem afterSep_append (i : Nat) (u r : List Char) : afterSep i u ++ r = afterSep i (u ++ r) := by
  unfold afterSep
  split <;> rfl

theorem readGroups_sound (i left : Nat) (t : List Char) :
    ((readGroups i left t).1 = [] ∧ (readGroups i left t).2.1 = false ∧ (readGroups i left t).2.2 = t) ∨
      ∃ u, t = afterSep i u ++ (readGroups i left t).2.2 ∧ GroupsText (readGroups i left t).2.1 u (readGroups i left t).1 ∧ (readGroups i left t).1.length ≤ left := by
  induction left generalizing i t with
  | zero => exact .inl ⟨rfl, rfl, rfl⟩
  | succ left ih =>
    unfold readGroups
    split
    · rename_i v t' h
      split at h
      · rename_i hl
        obtain ⟨u, rfl, hi⟩ := readSep_iff.1 h
        obtain ⟨u', rfl, h', _⟩ := readIpv4_iff.1 hi
        refine .inr ⟨u', (afterSep_append ..).symm, .dotted _ _ h', ?_⟩
        simp only [List.length_cons, List.length_nil]
        omega
      · cases h
    · split
      · rename_i g t' h
        obtain ⟨u, rfl, hi⟩ := readSep_iff.1 h
        obtain ⟨u', rfl, h', _⟩ := readGroup_iff.1 hi
        simp only
        rcases ih (i + 1) t' with ⟨a1, a2, a3⟩ | ⟨u2, a1, a2, a3⟩
        · rw [a1, a2, a3]
          exact .inr ⟨u', (afterSep_append ..).symm, .one _ _ h', by simp⟩
        · refine .inr ⟨u' ++ ':' :: u2, ?_, .more _ _ _ _ _ h' a2, by simpa using a3⟩
          conv => lhs; rw [a1]
          rw [afterSep_append, afterSep_append, List.append_assoc, List.cons_append]
          simp [afterSep]
      · exact .inl ⟨rfl, rfl, rfl⟩

theorem readIpv6_sound {t r : List Char} {v : Nat} (h : readIpv6 t = some (v, r)) : ∃ u, t = u ++ r ∧ V6Text u v := by
  have hs := readGroups_sound 0 8 t
  unfold readIpv6 at h
  simp only at h
  generalize readGroups 0 8 t = head at *
  obtain ⟨ns, b, r1⟩ := head
  simp only at h hs
  split at h
  · rename_i h8
    simp only [Option.some.injEq, Prod.mk.injEq] at h
    obtain ⟨rfl, rfl⟩ := h
    rcases hs with ⟨rfl, _⟩ | ⟨u, rfl, h1, _⟩
    · cases h8
    · exact ⟨u, rfl, .full _ _ _ h1 h8⟩
  · split at h
    · cases h
    · rename_i h8 hb
      cases h1 : readChar ':' r1 with
      | none => rw [h1] at h; cases h
      | some t1 =>
        rw [h1] at h
        simp only at h
        cases h2 : readChar ':' t1 with
        | none => rw [h2] at h; cases h
        | some t2 =>
          rw [h2] at h
          simp only [Option.some.injEq, Prod.mk.injEq] at h
          have e1 := readChar_iff.1 h1
          have e2 := readChar_iff.1 h2
          subst e2
          have hl : ∃ u, t = u ++ r1 ∧ MaybeGroups false u ns ∧ ns.length ≤ 7 := by
            rcases hs with ⟨rfl, _, rfl⟩ | ⟨u, rfl, k1, k2⟩
            · exact ⟨[], rfl, .inl ⟨rfl, rfl⟩, by simp⟩
            · refine ⟨u, rfl, .inr ?_, by omega⟩
              rw [show b = false by simpa using hb] at k1
              exact k1
          obtain ⟨u, rfl, hu, hlen⟩ := hl
          have hs2 := readGroups_sound 0 (7 - ns.length) t2
          generalize readGroups 0 (7 - ns.length) t2 = tail at *
          obtain ⟨ms, b2, r2⟩ := tail
          simp only at h hs2
          obtain ⟨rfl, rfl⟩ := h
          subst e1
          rcases hs2 with ⟨rfl, _, rfl⟩ | ⟨u2, rfl, k1, k2⟩
          · exact ⟨u ++ [':', ':'], by simp, .short false u [] ns [] hu (.inl ⟨rfl, rfl⟩) (by simpa using hlen)⟩
          · exact ⟨u ++ ':' :: ':' :: u2, by simp [afterSep], .short b2 u u2 ns ms hu (.inr k1) (by omega)⟩

/-- A group that is not followed by a dot is not the beginning of an IPv4 address. -/
theorem group_not_ipv4 {t r : List Char} {n : Nat} (h : Numeral 16 t n) (hr : NoDigit 16 r) (hd : ∀ u, r ≠ '.' :: u) : readIpv4 (t ++ r) = none := by
  cases hx : readIpv4 (t ++ r) with
  | none => rfl
  | some x =>
    obtain ⟨v, r'⟩ := x
    obtain ⟨u, hu, ⟨a, b, c, d, ha, hb, hc, hd', rfl, _⟩, _⟩ := readIpv4_iff.1 hx
    exfalso
    obtain ⟨_, hall, _⟩ := (numeral_iff (by omega)).1 h
    obtain ⟨_, halla, _⟩ := (numeral_iff (radix := 16) (by omega)).1 (show Numeral 16 (decimalText a) _ from (numeral_iff (by omega)).2
      ⟨show_ne_nil 10 a, fun c hc => by
        obtain ⟨d, hd, rfl⟩ := isDigit_of_mem_show (by omega) (by omega) c hc
        simp [toDigit_digitChar (radix := 16) (by omega) (show d < 16 by omega)], rfl⟩)
    have e1 : (t ++ r).takeWhile (fun c => (toDigit 16 c).isSome) = t := takeWhile_append_stop hall (fun c hc => by simp [hr c hc])
    rw [hu] at e1
    simp only [List.append_assoc, List.cons_append] at e1 hu
    rw [takeWhile_append_stop halla (fun c hc => by cases hc; decide)] at e1
    subst e1
    exact hd _ (List.append_cancel_left hu)

theorem noDigit_not_group {t : List Char} (h : NoDigit 16 t) : readGroup t = none := readNumber_none h

theorem noDigit16_10 {t : List Char} (h : NoDigit 16 t) : NoDigit 10 t := by
  intro c hc
  cases hx : toDigit 10 c with
  | none => rfl
  | some d =>
    have := (toDigit_iff (by omega)).1 hx
    have h16 := (toDigit_iff (radix := 16) (by omega)).2 ⟨this.1, by omega⟩
    rw [h c hc] at h16
    cases h16

/-- After `r` neither a further group nor a dot follows. -/
structure GroupEnd (r : List Char) : Prop where
  stops : Stops r
  noDot : ∀ u, r ≠ '.' :: u

theorem sep_ipv4_none {r : List Char} (h : Stops r) (i : Nat) : readSep ':' i readIpv4 r = none := by
  cases hx : readSep ':' i readIpv4 r with
  | none => rfl
  | some x =>
    exfalso
    obtain ⟨u, hu, hi⟩ := readSep_iff.1 hx
    have hn : NoDigit 10 u := by
      unfold afterSep at hu
      split at hu
      · subst hu; exact noDigit16_10 h.1
      · exact noDigit16_10 (h.2 u hu)
    rw [readIpv4_noDigit hn] at hi
    cases hi

theorem readGroups_stop {r : List Char} (h : Stops r) (i left : Nat) : readGroups i left r = ([], false, r) := by
  cases left with
  | zero => rfl
  | succ left =>
    unfold readGroups
    rw [sep_ipv4_none h, stops_sep h]
    simp

/-- Groups are read as the grammar says. -/
theorem readGroups_complete {b : Bool} {u : List Char} {ns : List Nat} (h : GroupsText b u ns) (i left : Nat) (hl : ns.length ≤ left) (r : List Char) (hr : if b then NoDigit 10 r else GroupEnd r) :
    readGroups i left (afterSep i u ++ r) = (ns, b, r) := by
  induction h generalizing i left with
  | one t n h =>
    obtain ⟨k, rfl⟩ : ∃ k, left = k + 1 := ⟨left - 1, by simp at hl; omega⟩
    simp only [Bool.false_eq_true, if_false] at hr
    have h1 : readSep ':' i readIpv4 (afterSep i t ++ r) = none := by
      cases hx : readSep ':' i readIpv4 (afterSep i t ++ r) with
      | none => rfl
      | some x =>
        obtain ⟨u, hu, hi⟩ := readSep_iff.1 hx
        rw [afterSep_append] at hu
        have : u = t ++ r := by
          unfold afterSep at hu
          split at hu
          · exact hu.symm
          · cases hu; rfl
        rw [this, group_not_ipv4 h.1 hr.stops.1 hr.noDot] at hi
        cases hi
    have h2 : readSep ':' i readGroup (afterSep i t ++ r) = some (n, r) := readSep_iff.2 ⟨_, afterSep_append .., readGroup_iff.2 ⟨t, rfl, h, hr.stops.1⟩⟩
    unfold readGroups
    rw [h1, h2]
    simp only [ite_self]
    rw [readGroups_stop hr.stops]
  | dotted t v h =>
    obtain ⟨k, rfl⟩ : ∃ k, left = k + 1 := ⟨left - 1, by simp at hl; omega⟩
    simp only [if_true] at hr
    have h1 : readSep ':' i readIpv4 (afterSep i t ++ r) = some (v, r) := readSep_iff.2 ⟨_, afterSep_append .., readIpv4_iff.2 ⟨t, rfl, h, hr⟩⟩
    unfold readGroups
    rw [if_pos (by simp at hl; omega), h1]
  | more d t u n ns h hu ih =>
    obtain ⟨k, rfl⟩ : ∃ k, left = k + 1 := ⟨left - 1, by simp at hl; omega⟩
    have hc : NoDigit 16 (':' :: u ++ r) := noDigit_cons (by decide)
    have h1 : readSep ':' i readIpv4 (afterSep i (t ++ ':' :: u) ++ r) = none := by
      cases hx : readSep ':' i readIpv4 (afterSep i (t ++ ':' :: u) ++ r) with
      | none => rfl
      | some x =>
        obtain ⟨y, hy, hi⟩ := readSep_iff.1 hx
        rw [afterSep_append, List.append_assoc] at hy
        have : y = t ++ (':' :: u ++ r) := by
          unfold afterSep at hy
          split at hy
          · exact hy.symm
          · cases hy; rfl
        rw [this, group_not_ipv4 h.1 hc (fun u h => by cases h)] at hi
        cases hi
    have h2 : readSep ':' i readGroup (afterSep i (t ++ ':' :: u) ++ r) = some (n, ':' :: u ++ r) :=
      readSep_iff.2 ⟨_, by rw [afterSep_append, List.append_assoc], readGroup_iff.2 ⟨t, rfl, h, hc⟩⟩
    have h3 := ih (i + 1) k (by simpa using hl) hr
    unfold readGroups
    rw [h1, h2]
    simp only [ite_self]
    rw [show ':' :: u ++ r = afterSep (i + 1) u ++ r by simp [afterSep], h3]

/-- What may follow an address in a text. -/
structure AddrEnd (r : List Char) : Prop where
  noDigit : NoDigit 16 r
  noColon : ∀ u, r ≠ ':' :: u
  noDot : ∀ u, r ≠ '.' :: u

theorem AddrEnd.groupEnd {r : List Char} (h : AddrEnd r) : GroupEnd r := ⟨⟨h.noDigit, fun t ht => absurd ht (h.noColon t)⟩, h.noDot⟩

theorem addrEnd_nil : AddrEnd [] := ⟨noDigit_nil, nofun, nofun⟩

theorem addrEnd_cons {c : Char} (h : toDigit 16 c = none) (h1 : c ≠ ':') (h2 : c ≠ '.') (t : List Char) : AddrEnd (c :: t) :=
  ⟨noDigit_cons h, fun u he => h1 (by cases he; rfl), fun u he => h2 (by cases he; rfl)⟩

theorem AddrEnd.after {r : List Char} (h : AddrEnd r) (b : Bool) : if b then NoDigit 10 r else GroupEnd r := by
  cases b with
  | true => exact noDigit16_10 h.noDigit
  | false => exact h.groupEnd

theorem groupsValue_eq (ns : List Nat) : groupsValue ns = ofSegments ns := rfl

theorem readIpv6_complete {u : List Char} {v : Nat} (h : V6Text u v) (r : List Char) (hr : AddrEnd r) : readIpv6 (u ++ r) = some (v, r) := by
  cases h with
  | full d t ns h h8 =>
    have := readGroups_complete h 0 8 (by omega) r (hr.after d)
    rw [show afterSep 0 u = u from rfl] at this
    unfold readIpv6
    simp only [this]
    rw [if_pos h8]
    rfl
  | short d t u ns ms h hu h7 =>
    have hcc : GroupEnd (':' :: ':' :: (u ++ r)) := by
      refine ⟨⟨noDigit_cons (by decide), fun t ht => ?_⟩, fun u he => by cases he⟩
      cases ht
      exact noDigit_cons (by decide)
    have h1 : readGroups 0 8 (t ++ ':' :: ':' :: u ++ r) = (ns, false, ':' :: ':' :: (u ++ r)) := by
      rw [show t ++ ':' :: ':' :: u ++ r = t ++ ':' :: ':' :: (u ++ r) by simp]
      rcases h with ⟨rfl, rfl⟩ | h
      · exact readGroups_stop hcc.stops 0 8
      · exact readGroups_complete h 0 8 (by omega) _ hcc
    have h2 : (readGroups 0 (7 - ns.length) (u ++ r)).1 = ms ∧ (readGroups 0 (7 - ns.length) (u ++ r)).2.2 = r := by
      rcases hu with ⟨rfl, rfl⟩ | hu
      · rw [List.nil_append, readGroups_stop hr.groupEnd.stops]
        exact ⟨rfl, rfl⟩
      · have := readGroups_complete hu 0 (7 - ns.length) (by omega) r (hr.after d)
        rw [show afterSep 0 u = u from rfl] at this
        rw [this]
        exact ⟨rfl, rfl⟩
    unfold readIpv6
    simp only [h1]
    rw [if_neg (by omega)]
    simp only [Bool.false_eq_true, if_false, readChar, if_pos]
    rw [h2.1, h2.2]
    rfl

/-- An IPv6 text does not begin with an IPv4 one. -/
theorem v6_not_ipv4 {u : List Char} {v : Nat} (h : V6Text u v) (r : List Char) : readIpv4 (u ++ r) = none := by
  have hgroups : ∀ {d t ns} (x : List Char), GroupsText d t ns → (ns.length ≠ 2 ∨ d = false) → NoDigit 16 x → (∀ u, x ≠ '.' :: u) → readIpv4 (t ++ x) = none := by
    intro d t ns x h hl hx hx'
    cases h with
    | one t n h => exact group_not_ipv4 h.1 hx hx'
    | dotted t v h => exact absurd hl (by simp)
    | more d t u n ns h hu =>
      rw [List.append_assoc]
      exact group_not_ipv4 h.1 (noDigit_cons (by decide)) (fun u h => by cases h)
  have hdots : ∀ {d t ns} (x : List Char), GroupsText d t ns → ns.length = 8 → readIpv4 (t ++ x) = none := by
    intro d t ns x h hl
    cases h with
    | one t n h => cases hl
    | dotted t v h => cases hl
    | more d t u n ns h hu =>
      rw [List.append_assoc]
      exact group_not_ipv4 h.1 (noDigit_cons (by decide)) (fun u h => by cases h)
  cases h with
  | full d t ns h h8 => exact hdots r h h8
  | short d t u ns ms h hu h7 =>
    rw [List.append_assoc]
    rcases h with ⟨rfl, rfl⟩ | h
    · exact readIpv4_noDigit (noDigit_cons (by decide))
    · exact hgroups _ h (.inr rfl) (noDigit_cons (by decide)) (fun u h => by cases h)

/-! ## The theorems -/

/-- **C110** (`IpAddr::from_str`): a text is read as an address exactly if it is one by the grammar, and as that one. -/
theorem C110_ip_iff (t : List Char) (ip : Ip) : parseIp t = some ip ↔ IpText t ip := by
  constructor
  · intro h
    unfold parseIp readIp at h
    cases h4 : readIpv4 t with
    | some x =>
      obtain ⟨v, r⟩ := x
      rw [h4] at h
      simp only at h
      cases r with
      | nil =>
        cases h
        obtain ⟨u, rfl, hu, _⟩ := readIpv4_iff.1 h4
        rw [List.append_nil]
        exact .v4 _ _ hu
      | cons c r => cases h
    | none =>
      rw [h4] at h
      simp only at h
      cases h6 : readIpv6 t with
      | none => rw [h6] at h; cases h
      | some x =>
        obtain ⟨v, r⟩ := x
        rw [h6] at h
        simp only at h
        cases r with
        | nil =>
          cases h
          obtain ⟨u, rfl, hu⟩ := readIpv6_sound h6
          rw [List.append_nil]
          exact .v6 _ _ hu
        | cons c r => cases h
  · intro h
    cases h with
    | v4 v h =>
      have := readIpv4_iff.2 ⟨t, (List.append_nil t).symm, h, noDigit_nil⟩
      unfold parseIp readIp
      rw [this]
    | v6 v h =>
      have h4 := v6_not_ipv4 h []
      have h6 := readIpv6_complete h [] addrEnd_nil
      rw [List.append_nil] at h4 h6
      unfold parseIp readIp
      rw [h4, h6]

theorem readPort_iff {t r : List Char} {p : Nat} : readPort t = some (p, r) ↔ ∃ u, t = ':' :: (u ++ r) ∧ PortDigits u p ∧ NoDigit 10 r := by
  unfold readPort
  constructor
  · intro h
    cases hc : readChar ':' t with
    | none => rw [hc] at h; cases h
    | some t1 =>
      rw [hc] at h
      simp only at h
      obtain ⟨u, rfl, hr, hn, _, hb, _⟩ := (readNumber_iff (by omega)).1 h
      exact ⟨u, readChar_iff.1 hc, ⟨hn, hb⟩, hr⟩
  · rintro ⟨u, rfl, ⟨hn, hb⟩, hr⟩
    rw [readChar_iff.2 rfl]
    exact (readNumber_iff (by omega)).2 ⟨u, rfl, hr, hn, nofun, hb, nofun⟩

theorem skipScope_sound (t : List Char) : ∃ s, t = s ++ skipScope t ∧ ScopeText s := by
  unfold skipScope
  split
  · exact ⟨[], rfl, .inl rfl⟩
  · rename_i t' h
    split
    · rename_i n t'' h'
      obtain ⟨u, rfl, _, hn, _, hb, _⟩ := (readNumber_iff (by omega)).1 h'
      exact ⟨'%' :: u, readChar_iff.1 h, .inr ⟨u, n, rfl, hn, hb⟩⟩
    · exact ⟨[], rfl, .inl rfl⟩

theorem skipScope_complete {s : List Char} (h : ScopeText s) (r : List Char) : skipScope (s ++ ']' :: r) = ']' :: r := by
  unfold skipScope
  rcases h with rfl | ⟨u, n, rfl, hn, hb⟩
  · rfl
  · have : readNumber 10 none true (2 ^ 32) (u ++ ']' :: r) = some (n, ']' :: r) := (readNumber_iff (by omega)).2 ⟨u, rfl, noDigit_cons (by decide), hn, nofun, hb, nofun⟩
    simp only [List.cons_append, readChar, if_pos]
    rw [this]

/-- **C110** (`SocketAddr::from_str`): the same for an address with a port. -/
theorem C110_socket_iff (t : List Char) (s : SockAddr) : parseSockAddr t = some s ↔ SocketText t s := by
  have sound4 : ∀ {r}, readSockV4 t = some (s, r) → r = [] → SocketText t s := by
    intro r h hr
    subst hr
    unfold readSockV4 at h
    cases h4 : readIpv4 t with
    | none => rw [h4] at h; cases h
    | some x =>
      obtain ⟨v, r⟩ := x
      rw [h4] at h
      simp only at h
      cases hp : readPort r with
      | none => rw [hp] at h; cases h
      | some y =>
        obtain ⟨p, r'⟩ := y
        rw [hp] at h
        cases h
        obtain ⟨u, rfl, hu, _⟩ := readIpv4_iff.1 h4
        obtain ⟨q, rfl, hq, _⟩ := readPort_iff.1 hp
        rw [List.append_nil]
        exact .v4 _ _ _ _ hu hq
  have sound6 : readSockV6 t = some (s, []) → SocketText t s := by
    intro h
    unfold readSockV6 at h
    cases hb : readChar '[' t with
    | none => rw [hb] at h; cases h
    | some t1 =>
      rw [hb] at h
      simp only at h
      cases h6 : readIpv6 t1 with
      | none => rw [h6] at h; cases h
      | some x =>
        obtain ⟨v, r⟩ := x
        rw [h6] at h
        simp only at h
        cases hc : readChar ']' (skipScope r) with
        | none => rw [hc] at h; cases h
        | some t2 =>
          rw [hc] at h
          simp only at h
          cases hp : readPort t2 with
          | none => rw [hp] at h; cases h
          | some y =>
            obtain ⟨p, r'⟩ := y
            rw [hp] at h
            cases h
            obtain ⟨u, rfl, hu⟩ := readIpv6_sound h6
            obtain ⟨sc, hsc, hs⟩ := skipScope_sound r
            obtain ⟨q, rfl, hq, _⟩ := readPort_iff.1 hp
            rw [readChar_iff.1 hc] at hsc
            rw [readChar_iff.1 hb, hsc, List.append_nil]
            exact .v6 _ _ _ _ _ hu hs hq
  constructor
  · intro h
    unfold parseSockAddr at h
    cases h4 : readSockV4 t with
    | some x =>
      obtain ⟨a, r⟩ := x
      rw [h4] at h
      cases r with
      | nil => cases h; exact sound4 h4 rfl
      | cons c r => cases h
    | none =>
      rw [h4] at h
      simp only at h
      cases h6 : readSockV6 t with
      | none => rw [h6] at h; cases h
      | some x =>
        obtain ⟨a, r⟩ := x
        rw [h6] at h
        cases r with
        | nil => cases h; exact sound6 h6
        | cons c r => cases h
  · intro h
    clear sound4 sound6
    cases h with
    | v4 t u v p h hp =>
      have h4 : readSockV4 (t ++ ':' :: u) = some (⟨.v4 (BitVec.ofNat 32 v), p⟩, []) := by
        unfold readSockV4
        rw [readIpv4_iff.2 ⟨t, rfl, h, noDigit_cons (by decide)⟩]
        simp only
        rw [readPort_iff.2 ⟨u, by rw [List.append_nil], hp, noDigit_nil⟩]
      unfold parseSockAddr
      rw [h4]
    | v6 t sc u v p h hs hp =>
      have h4 : readSockV4 ('[' :: (t ++ (sc ++ ']' :: ':' :: u))) = none := by
        unfold readSockV4
        rw [readIpv4_noDigit (noDigit_cons (by decide))]
      have hend : AddrEnd (sc ++ ']' :: ':' :: u) := by
        rcases hs with rfl | ⟨q, n, rfl, _⟩
        · exact addrEnd_cons (by decide) (by decide) (by decide) _
        · exact addrEnd_cons (by decide) (by decide) (by decide) _
      have h6 : readSockV6 ('[' :: (t ++ (sc ++ ']' :: ':' :: u))) = some (⟨.v6 (BitVec.ofNat 128 v), p⟩, []) := by
        unfold readSockV6
        rw [readChar_iff.2 rfl]
        simp only
        rw [readIpv6_complete h _ hend]
        simp only
        rw [skipScope_complete hs, readChar_iff.2 rfl]
        simp only
        rw [readPort_iff.2 ⟨u, by rw [List.append_nil], hp, noDigit_nil⟩]
      unfold parseSockAddr
      rw [h4, h6]

/-- **C110** (the grammar is unambiguous): no text is two addresses, or two addresses with a port, or both. -/
theorem C110_unambiguous (t : List Char) : (∀ a b, IpText t a → IpText t b → a = b) ∧ (∀ a b, SocketText t a → SocketText t b → a = b) := by
  refine ⟨fun a b ha hb => ?_, fun a b ha hb => ?_⟩
  · have h1 := (C110_ip_iff t a).2 ha
    have h2 := (C110_ip_iff t b).2 hb
    rw [h1] at h2
    cases h2
    rfl
  · have h1 := (C110_socket_iff t a).2 ha
    have h2 := (C110_socket_iff t b).2 hb
    rw [h1] at h2
    cases h2
    rfl

/-- Non-vacuity: some texts that are addresses, one that is none, and some with a port. -/
example : IpText "10.0.0.2".toList (.v4 0x0a000002) ∧ IpText "2001:DB8::0f".toList (.v6 0x20010db800000000000000000000000f) ∧ IpText "::ffff:1.2.3.4".toList (.v6 0xffff01020304) ∧
    (∀ ip, ¬ IpText "10.0.0.02".toList ip) ∧ SocketText "10.0.0.2:0080".toList ⟨.v4 0x0a000002, 80⟩ ∧ SocketText "[fe80::1%3]:80".toList ⟨.v6 0xfe800000000000000000000000000001, 80⟩ ∧
    (∀ s, ¬ SocketText "10.0.0.2:80x".toList s) ∧ ∀ s, ¬ SocketText "[::1]:80 ".toList s := by
  simp only [← C110_ip_iff, ← C110_socket_iff]
  have none4 : parseIp "10.0.0.02".toList = none := by decide +kernel
  have nones : parseSockAddr "10.0.0.2:80x".toList = none := by decide +kernel
  have nonet : parseSockAddr "[::1]:80 ".toList = none := by decide +kernel
  rw [none4, nones, nonet]
  exact ⟨by decide +kernel, by decide +kernel, by decide +kernel, nofun, by decide +kernel, by decide +kernel, nofun, nofun⟩

end Ruroco
