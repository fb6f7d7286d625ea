import Verif.Model.IpText

/-! Lemmas about the address parser and printer. -/

namespace Ruroco

theorem toDigit_digitChar {radix d : Nat} (hr : radix ≤ 16) (hd : d < radix) : toDigit radix (Nat.digitChar d) = some d := by
  have h16 : ∀ d < 16, toDigit 16 (Nat.digitChar d) = some d := by decide
  have h := h16 d (by omega)
  unfold toDigit at h ⊢
  simp only at h ⊢
  split at h
  · rename_i v hv
    split at h
    · cases h
      simp only [if_pos hd]
    · cases h
  · cases h

theorem isDigit_of_mem_show {radix n : Nat} (hr1 : 1 < radix) (hr : radix ≤ 16) : ∀ c ∈ showRadix radix n, ∃ d < radix, c = Nat.digitChar d := by
  unfold showRadix
  induction n using Nat.strongRecOn with
  | _ n ih =>
    intro c hc
    rw [Nat.toDigits_eq_if hr1] at hc
    split at hc
    · rename_i h
      simp at hc
      exact ⟨n, h, hc⟩
    · rename_i h
      rcases List.mem_append.1 hc with hc | hc
      · exact ih (n / radix) (Nat.div_lt_self (by omega) hr1) c hc
      · simp at hc
        exact ⟨n % radix, Nat.mod_lt _ (by omega), hc⟩

theorem ofDigits_append (radix : Nat) (a : List Char) (c : Char) : ofDigits radix (a ++ [c]) = ofDigits radix a * radix + (toDigit radix c).getD 0 := by
  simp [ofDigits]

theorem ofDigits_show {radix n : Nat} (hr1 : 1 < radix) (hr : radix ≤ 16) : ofDigits radix (showRadix radix n) = n := by
  unfold showRadix
  induction n using Nat.strongRecOn with
  | _ n ih =>
    rw [Nat.toDigits_eq_if hr1]
    split
    · rename_i h
      simp [ofDigits, toDigit_digitChar hr h]
    · rename_i h
      rw [ofDigits_append, ih (n / radix) (Nat.div_lt_self (by omega) hr1), toDigit_digitChar hr (Nat.mod_lt _ (by omega))]
      simp only [Option.getD_some]
      exact Nat.div_add_mod' n radix

theorem show_ne_nil (radix n : Nat) : showRadix radix n ≠ [] := Nat.toDigits_ne_nil

theorem show_head {radix n : Nat} (hr1 : 1 < radix) (h : (showRadix radix n).head? = some '0') : n = 0 := by
  unfold showRadix at h
  induction n using Nat.strongRecOn with
  | _ n ih =>
    rw [Nat.toDigits_eq_if hr1] at h
    split at h
    · simpa using h
    · rename_i hn
      have : (Nat.toDigits radix (n / radix)).head? = some '0' := by
        rw [List.head?_append] at h
        cases hh : (Nat.toDigits radix (n / radix)).head? with
        | none =>
          rw [List.head?_eq_none_iff] at hh
          exact absurd hh Nat.toDigits_ne_nil
        | some c => rw [hh] at h; simpa using h
      have := ih _ (Nat.div_lt_self (by omega) hr1) this
      have := Nat.div_pos (Nat.le_of_not_lt hn) (by omega)
      omega

/-- Text that does not continue a number. -/
def NoDigit (radix : Nat) (t : List Char) : Prop := ∀ c, t.head? = some c → toDigit radix c = none

theorem takeWhile_append_stop {p : Char → Bool} {a b : List Char} (ha : ∀ c ∈ a, p c = true) (hb : ∀ c, b.head? = some c → p c = false) :
    (a ++ b).takeWhile p = a := by
  induction a with
  | nil =>
    cases b with
    | nil => rfl
    | cons c t => simp [hb c (by simp)]
  | cons c a ih =>
    have := ha c (by simp)
    simp only [List.cons_append, List.takeWhile, this]
    rw [ih (fun c hc => ha c (by simp [hc]))]

theorem takeWhile_show {radix n : Nat} (hr1 : 1 < radix) (hr : radix ≤ 16) {rest : List Char} (hrest : NoDigit radix rest) :
    (showRadix radix n ++ rest).takeWhile (fun c => (toDigit radix c).isSome) = showRadix radix n := by
  apply takeWhile_append_stop
  · intro c hc
    obtain ⟨d, hd, rfl⟩ := isDigit_of_mem_show hr1 hr c hc
    simp [toDigit_digitChar hr hd]
  · intro c hc
    simp [hrest c hc]

theorem readNumber_show {radix n bound : Nat} {m : Option Nat} {az : Bool} (hr1 : 1 < radix) (hr : radix ≤ 16) {rest : List Char}
    (hrest : NoDigit radix rest) (hb : n < bound) (hm : ∀ k, m = some k → (showRadix radix n).length ≤ k) :
    readNumber radix m az bound (showRadix radix n ++ rest) = some (n, rest) := by
  unfold readNumber
  simp only [takeWhile_show hr1 hr hrest, ofDigits_show hr1 hr]
  rw [if_neg, if_neg (by omega), if_neg (show_ne_nil _ _), if_neg, List.drop_left]
  · intro h
    simp only [Bool.and_eq_true, beq_iff_eq, decide_eq_true_eq] at h
    have h0 := show_head hr1 h.1.2
    subst h0
    have := h.2
    unfold showRadix at this
    rw [Nat.toDigits_zero] at this
    simp at this
  · cases m with
    | none => simp
    | some k =>
      have := hm k rfl
      simp; omega

theorem length_show_le {radix n k : Nat} (hr1 : 1 < radix) (hk : 0 < k) (h : n < radix ^ k) : (showRadix radix n).length ≤ k :=
  (Nat.length_toDigits_le_iff hr1 hk).2 h

theorem readOctet_show {n : Nat} (h : n < 256) {rest : List Char} (hrest : NoDigit 10 rest) : readOctet (showRadix 10 n ++ rest) = some (n, rest) :=
  readNumber_show (by omega) (by omega) hrest h (fun k hk => by cases hk; exact length_show_le (by omega) (by omega) (by omega))

theorem readGroup_show {n : Nat} (h : n < 65536) {rest : List Char} (hrest : NoDigit 16 rest) : readGroup (showRadix 16 n ++ rest) = some (n, rest) :=
  readNumber_show (by omega) (by omega) hrest h (fun k hk => by cases hk; exact length_show_le (by omega) (by omega) (by omega))

theorem noDigit_cons {radix : Nat} {c : Char} {t : List Char} (h : toDigit radix c = none) : NoDigit radix (c :: t) := by
  intro d hd
  simp at hd; subst hd; exact h

theorem noDigit_nil {radix : Nat} : NoDigit radix [] := by intro c hc; simp at hc

theorem readIpv4_show {a : Nat} (ha : a < 2 ^ 32) {rest : List Char} (hrest : NoDigit 10 rest) : readIpv4 (showIpv4 a ++ rest) = some (a, rest) := by
  have hdot : ∀ t, NoDigit 10 ('.' :: t) := fun t => noDigit_cons (by decide)
  unfold readIpv4 showIpv4
  simp only [readSep, if_pos, List.append_assoc, List.cons_append]
  rw [readOctet_show (Nat.mod_lt _ (by omega)) (hdot _)]
  simp only [readChar, if_pos, show (1 : Nat) ≠ 0 by omega, show (2 : Nat) ≠ 0 by omega, show (3 : Nat) ≠ 0 by omega, if_false]
  rw [readOctet_show (Nat.mod_lt _ (by omega)) (hdot _)]
  simp only [if_pos]
  rw [readOctet_show (Nat.mod_lt _ (by omega)) (hdot _)]
  simp only [if_pos]
  rw [readOctet_show (Nat.mod_lt _ (by omega)) hrest]
  simp only [Option.some.injEq, Prod.mk.injEq, and_true]
  omega

/-! ### IPv6 -/

theorem readNumber_rest {radix bound : Nat} {m : Option Nat} {az : Bool} {t t' : List Char} {n : Nat} (h : readNumber radix m az bound t = some (n, t')) :
    t' <:+ t ∧ n < bound := by
  unfold readNumber at h
  simp only at h
  split at h
  · cases h
  · split at h
    · cases h
    · split at h
      · cases h
      · split at h
        · cases h
        · cases h
          exact ⟨List.drop_suffix _ _, by omega⟩

theorem readNumber_none {radix bound : Nat} {m : Option Nat} {az : Bool} {t : List Char} (h : NoDigit radix t) : readNumber radix m az bound t = none := by
  have : t.takeWhile (fun c => (toDigit radix c).isSome) = [] := by
    cases t with
    | nil => rfl
    | cons c t => simp [h c (by simp)]
  unfold readNumber
  simp only [this]
  split
  · rfl
  · split
    · rfl
    · simp

theorem readChar_none {c : Char} {t : List Char} (h : c ∉ t) : readChar c t = none := by
  cases t with
  | nil => rfl
  | cons d t =>
    have hne : ¬ d = c := by rintro rfl; simp at h
    simp only [readChar, if_neg hne]

theorem readIpv4_noDot {t : List Char} (h : '.' ∉ t) : readIpv4 t = none := by
  unfold readIpv4
  cases h1 : readSep '.' 0 readOctet t with
  | none => rfl
  | some x =>
    obtain ⟨a, t'⟩ := x
    have h1 : readOctet t = some (a, t') := h1
    have hs := (readNumber_rest h1).1
    have : '.' ∉ t' := fun hm => h (hs.subset hm)
    simp [readSep, readChar_none this]

theorem readIpv4_noDigit {t : List Char} (h : NoDigit 10 t) : readIpv4 t = none := by
  unfold readIpv4
  have : readSep '.' 0 readOctet t = none := readNumber_none h
  rw [this]

/-- Groups with their separators, starting at position `i`. -/
def groupsFrom (i : Nat) : List Nat → List Char
  | [] => []
  | g :: gs => (if i = 0 then [] else [':']) ++ showRadix 16 g ++ groupsFrom (i + 1) gs

theorem groupsFrom_zero (gs : List Nat) : groupsFrom 0 gs = showGroups gs := by
  have hpos : ∀ i g gs, groupsFrom (i + 1) (g :: gs) = ':' :: showGroups (g :: gs) := by
    intro i g gs
    induction gs generalizing g i with
    | nil => simp [groupsFrom, showGroups]
    | cons h t ih =>
      rw [groupsFrom, ih]
      simp [showGroups]
  cases gs with
  | nil => rfl
  | cons g gs =>
    cases gs with
    | nil => simp [groupsFrom, showGroups]
    | cons h t =>
      rw [groupsFrom, hpos]
      simp [showGroups]

/-- No further group can be read. -/
def Stops (rest : List Char) : Prop := NoDigit 16 rest ∧ ∀ t, rest = ':' :: t → NoDigit 16 t

theorem stops_sep {rest : List Char} (h : Stops rest) (i : Nat) : readSep ':' i readGroup rest = none := by
  unfold readSep
  split
  · exact readNumber_none h.1
  · cases rest with
    | nil => rfl
    | cons c t =>
      by_cases hc : c = ':'
      · subst hc
        simp only [readChar, if_pos]
        exact readNumber_none (h.2 t rfl)
      · simp only [readChar, if_neg hc]

theorem noDigit_groupsFrom {i : Nat} (gs : List Nat) {rest : List Char} (h : NoDigit 16 rest) : NoDigit 16 (groupsFrom (i + 1) gs ++ rest) := by
  cases gs with
  | nil => exact h
  | cons g gs =>
    simp only [groupsFrom, Nat.succ_ne_zero, if_false, List.cons_append, List.nil_append]
    exact noDigit_cons (by decide)

theorem sep_ipv4_noDot {t : List Char} (h : '.' ∉ t) (i : Nat) : readSep ':' i readIpv4 t = none := by
  unfold readSep
  split
  · exact readIpv4_noDot h
  · cases ht : readChar ':' t with
    | none => rfl
    | some t' =>
      have : '.' ∉ t' := by
        cases t with
        | nil => cases ht
        | cons c t =>
          by_cases hc : c = ':'
          · simp only [readChar, if_pos hc, Option.some.injEq] at ht
            subst ht
            intro hm
            exact h (by simp [hm])
          · simp only [readChar, if_neg hc] at ht
            cases ht
      exact readIpv4_noDot this

theorem readGroups_show (i left : Nat) (gs : List Nat) (rest : List Char) (hlen : gs.length ≤ left) (hgs : ∀ g ∈ gs, g < 65536)
    (hdot : '.' ∉ groupsFrom i gs ++ rest) (hrest : NoDigit 16 rest) (hstop : gs.length < left → Stops rest) :
    readGroups i left (groupsFrom i gs ++ rest) = (gs, false, rest) := by
  induction left generalizing i gs with
  | zero =>
    have : gs = [] := List.length_eq_zero_iff.1 (by omega)
    subst this
    rfl
  | succ left ih =>
    have hno : (if 0 < left then readSep ':' i readIpv4 (groupsFrom i gs ++ rest) else none) = none := by
      split
      · exact sep_ipv4_noDot hdot i
      · rfl
    unfold readGroups
    rw [hno]
    simp only
    cases gs with
    | nil =>
      have := stops_sep (hstop (by simp)) i
      simp only [groupsFrom, List.nil_append]
      rw [this]
    | cons g gs =>
      have hsep : readSep ':' i readGroup (groupsFrom i (g :: gs) ++ rest) = some (g, groupsFrom (i + 1) gs ++ rest) := by
        have hg := readGroup_show (hgs g (by simp)) (noDigit_groupsFrom (i := i) gs hrest)
        rw [show groupsFrom i (g :: gs) = (if i = 0 then [] else [':']) ++ showRadix 16 g ++ groupsFrom (i + 1) gs from rfl]
        unfold readSep
        by_cases hi : i = 0
        · simp only [if_pos hi, List.nil_append, List.append_assoc]
          exact hg
        · simp only [if_neg hi, List.cons_append, List.nil_append, List.append_assoc, readChar, if_pos]
          exact hg
      rw [hsep]
      simp only
      rw [ih (i + 1) gs (by simpa using hlen) (fun g hg => hgs g (by simp [hg])) ?_ (fun h => hstop (by simpa using h))]
      intro hm
      apply hdot
      simp only [groupsFrom, List.append_assoc, List.mem_append] at hm ⊢
      exact Or.inr (Or.inr hm)

theorem show_chars {radix n : Nat} (hr1 : 1 < radix) (hr : radix ≤ 16) : ∀ c ∈ showRadix radix n, c ∈ "0123456789abcdef".toList := by
  intro c hc
  obtain ⟨d, hd, rfl⟩ := isDigit_of_mem_show hr1 hr c hc
  have : ∀ d < 16, Nat.digitChar d ∈ "0123456789abcdef".toList := by decide
  exact this d (by omega)

theorem showGroups_chars (gs : List Nat) : ∀ c ∈ showGroups gs, c ∈ "0123456789abcdef:".toList := by
  have hsub : ∀ c ∈ "0123456789abcdef".toList, c ∈ "0123456789abcdef:".toList := by decide
  induction gs with
  | nil => intro c hc; cases hc
  | cons g gs ih =>
    intro c hc
    cases gs with
    | nil => exact hsub c (show_chars (by omega) (by omega) c hc)
    | cons h t =>
      simp only [showGroups, List.mem_append, List.mem_cons] at hc
      rcases hc with hc | hc | hc
      · exact hsub c (show_chars (by omega) (by omega) c hc)
      · subst hc; decide
      · exact ih c (by simpa [showGroups] using hc)

/-- A run inside `L`. -/
def ZeroRun (L : List Nat) (r : Nat × Nat) : Prop := r.1 + r.2 ≤ L.length ∧ ∀ k, r.1 ≤ k → k < r.1 + r.2 → L[k]? = some 0

theorem longestZeros_run (L : List Nat) (suf : List Nat) (i : Nat) (cur best : Nat × Nat) (hsuf : L.drop i = suf) (hi : i ≤ L.length)
    (hcur : cur.2 ≠ 0 → cur.1 + cur.2 = i ∧ ZeroRun L cur) (hbest : ZeroRun L best) : ZeroRun L (longestZeros i cur best suf) := by
  induction suf generalizing i cur best with
  | nil => exact hbest
  | cons g gs ih =>
    have hg : L[i]? = some g := by
      have : (L.drop i)[0]? = some g := by rw [hsuf]; rfl
      rw [List.getElem?_drop] at this
      simpa using this
    have hlt : i < L.length := by
      rcases Nat.lt_or_ge i L.length with h | h
      · exact h
      · rw [List.getElem?_eq_none h] at hg; cases hg
    have hdrop : L.drop (i + 1) = gs := by
      rw [← List.drop_drop, hsuf]; rfl
    unfold longestZeros
    split
    · rename_i hz
      subst hz
      have hcur' : ZeroRun L (if cur.2 = 0 then (i, 1) else (cur.1, cur.2 + 1)) ∧
          (if cur.2 = 0 then (i, 1) else (cur.1, cur.2 + 1)).1 + (if cur.2 = 0 then (i, 1) else (cur.1, cur.2 + 1)).2 = i + 1 := by
        by_cases h0 : cur.2 = 0
        · simp only [if_pos h0]
          refine ⟨⟨by simp; omega, ?_⟩, trivial⟩
          intro k h1 h2
          simp at h1 h2
          rw [show k = i by omega]; exact hg
        · simp only [if_neg h0]
          obtain ⟨h1, h2, h3⟩ := hcur h0
          refine ⟨⟨show cur.1 + (cur.2 + 1) ≤ _ by omega, ?_⟩, by omega⟩
          intro k hk1 hk2
          have hk1 : cur.1 ≤ k := hk1
          have hk2 : k < cur.1 + (cur.2 + 1) := hk2
          by_cases hk : k = i
          · rw [hk]; exact hg
          · exact h3 k hk1 (by omega)
      apply ih (i + 1) _ _ hdrop (by omega)
      · intro _; exact ⟨hcur'.2, hcur'.1⟩
      · by_cases hb : best.2 < (if cur.2 = 0 then (i, 1) else (cur.1, cur.2 + 1)).2
        · simp only [if_pos hb]; exact hcur'.1
        · simp only [if_neg hb]; exact hbest
    · exact ih (i + 1) _ _ hdrop (by omega) (by simp) hbest

theorem zeroRun_split {L : List Nat} {r : Nat × Nat} (h : ZeroRun L r) : L.take r.1 ++ List.replicate r.2 0 ++ L.drop (r.1 + r.2) = L := by
  obtain ⟨h1, h2⟩ := h
  apply List.ext_getElem?
  intro k
  have hlen : (L.take r.1).length = r.1 := by rw [List.length_take]; omega
  by_cases hk1 : k < r.1
  · rw [List.append_assoc, List.getElem?_append_left (by omega), List.getElem?_take_of_lt hk1]
  · by_cases hk2 : k < r.1 + r.2
    · rw [List.append_assoc, List.getElem?_append_right (by omega), List.getElem?_append_left (by simp; omega), h2 k (by omega) hk2]
      rw [List.getElem?_replicate, if_pos (by omega)]
    · rw [List.getElem?_append_right (by simp; omega), List.getElem?_drop]
      congr 1
      simp; omega

theorem segment_lt (a : BitVec 128) (i : Nat) : segment a i < 65536 := Nat.mod_lt _ (by omega)

theorem ofSegments_segments (a : BitVec 128) : ofSegments (segments a) = a.toNat := by
  have h := a.isLt
  simp only [segments, ofSegments, List.range, List.range.loop, List.map, List.foldl, segment, Nat.sub_self, Nat.pow_zero]
  generalize a.toNat = n at *
  simp only [show (7 : Nat) - 0 = 7 from rfl, show (7 : Nat) - 1 = 6 from rfl, show (7 : Nat) - 2 = 5 from rfl, show (7 : Nat) - 3 = 4 from rfl, show (7 : Nat) - 4 = 3 from rfl, show (7 : Nat) - 5 = 2 from rfl, show (7 : Nat) - 6 = 1 from rfl]
  omega

/-- Text that may follow a printed IPv6 address in the contexts of this program: the end, or `]`. -/
def EndV6 (rest : List Char) : Prop := '.' ∉ rest ∧ (rest = [] ∨ ∃ t, rest = ']' :: t)

theorem EndV6.stops {rest : List Char} (h : EndV6 rest) : Stops rest := by
  rcases h.2 with rfl | ⟨t, rfl⟩
  · exact ⟨noDigit_nil, nofun⟩
  · exact ⟨noDigit_cons (by decide), by intro t h; cases h⟩

theorem EndV6.noDigit10 {rest : List Char} (h : EndV6 rest) : NoDigit 10 rest := by
  rcases h.2 with rfl | ⟨t, rfl⟩
  · exact noDigit_nil
  · exact noDigit_cons (by decide)

theorem noDot_of_chars {t : List Char} (h : ∀ c ∈ t, c ∈ "0123456789abcdef:".toList) : '.' ∉ t := by
  intro hm
  have := h _ hm
  revert this
  decide

theorem readIpv6_plain (a : BitVec 128) (hm : toV4Mapped a = none) {rest : List Char} (h : EndV6 rest) :
    readIpv6 (showIpv6 a ++ rest) = some (a.toNat, rest) := by
  have hlen : (segments a).length = 8 := by simp [segments]
  have hlt : ∀ g ∈ segments a, g < 65536 := by
    intro g hg
    simp only [segments, List.mem_map] at hg
    obtain ⟨i, _, rfl⟩ := hg
    exact segment_lt a i
  have hz := longestZeros_run (segments a) (segments a) 0 (0, 0) (0, 0) rfl (by omega) (by simp) ⟨by simp, by intro k h1 h2; simp at h2⟩
  unfold showIpv6
  rw [hm]
  simp only
  generalize longestZeros 0 (0, 0) (0, 0) (segments a) = z at hz
  split
  · rename_i hz2
    have hsplit := zeroRun_split hz
    have hz1 := hz.1
    have hl1 : ((segments a).take z.1).length = z.1 := by rw [List.length_take]; omega
    have hl2 : ((segments a).drop (z.1 + z.2)).length = 8 - (z.1 + z.2) := by rw [List.length_drop, hlen]
    have hd1 : '.' ∉ showGroups ((segments a).take z.1) := noDot_of_chars (showGroups_chars _)
    have hd2 : '.' ∉ showGroups ((segments a).drop (z.1 + z.2)) := noDot_of_chars (showGroups_chars _)
    have hhead := readGroups_show 0 8 ((segments a).take z.1) ("::".toList ++ (showGroups ((segments a).drop (z.1 + z.2)) ++ rest)) (by omega)
      (fun g hg => hlt g (List.mem_of_mem_take hg))
      (by rw [groupsFrom_zero]; simp [hd1, hd2, h.1]) (noDigit_cons (by decide))
      (fun _ => ⟨noDigit_cons (by decide), by intro t ht; cases ht; exact noDigit_cons (by decide)⟩)
    have htail := readGroups_show 0 (7 - z.1) ((segments a).drop (z.1 + z.2)) rest (by omega)
      (fun g hg => hlt g (List.mem_of_mem_drop hg))
      (by rw [groupsFrom_zero]; simp [hd2, h.1]) h.stops.1 (fun _ => h.stops)
    rw [groupsFrom_zero] at hhead htail
    unfold readIpv6
    rw [show showGroups ((segments a).take z.1) ++ "::".toList ++ showGroups ((segments a).drop (z.1 + z.2)) ++ rest =
      showGroups ((segments a).take z.1) ++ ("::".toList ++ (showGroups ((segments a).drop (z.1 + z.2)) ++ rest)) by simp]
    simp only [hhead]
    rw [if_neg (by omega)]
    simp only [Bool.false_eq_true, if_false]
    rw [show "::".toList ++ (showGroups ((segments a).drop (z.1 + z.2)) ++ rest) = ':' :: ':' :: (showGroups ((segments a).drop (z.1 + z.2)) ++ rest) from rfl]
    simp only [readChar, if_pos, hl1, htail, hl2]
    rw [show 8 - z.1 - (8 - (z.1 + z.2)) = z.2 by omega, hsplit, ofSegments_segments]
  · have hhead := readGroups_show 0 8 (segments a) rest (by omega) hlt
      (by rw [groupsFrom_zero]; simp [noDot_of_chars (showGroups_chars (segments a)), h.1]) h.stops.1 (fun _ => h.stops)
    rw [groupsFrom_zero] at hhead
    unfold readIpv6
    simp only [hhead, hlen, if_pos, ofSegments_segments]

theorem readIpv6_mapped (a : BitVec 128) (v : BitVec 32) (hm : toV4Mapped a = some v) {rest : List Char} (h : EndV6 rest) :
    readIpv6 (showIpv6 a ++ rest) = some (a.toNat, rest) := by
  have hval : a.toNat = 65535 * 2 ^ 32 + v.toNat := by
    unfold toV4Mapped at hm
    split at hm
    · cases hm
      simp
      omega
    · cases hm
  have hcolon : ∀ t, NoDigit 10 (':' :: t) := fun t => noDigit_cons (by decide)
  have hcolon16 : ∀ t, NoDigit 16 (':' :: t) := fun t => noDigit_cons (by decide)
  unfold showIpv6
  rw [hm]
  simp only
  have htext : "::ffff:".toList ++ showIpv4 v.toNat ++ rest = ':' :: ':' :: (showRadix 16 65535 ++ (':' :: (showIpv4 v.toNat ++ rest))) := by
    have : showRadix 16 65535 = "ffff".toList := by decide
    rw [this]; simp
  rw [htext]
  have hhead : ∀ t, readGroups 0 8 (':' :: t) = ([], false, ':' :: t) := by
    intro t
    unfold readGroups
    simp only [readSep, if_pos, show (0 : Nat) < 7 by omega]
    rw [readIpv4_noDigit (hcolon t)]
    simp only
    rw [show readGroup (':' :: t) = none from readNumber_none (hcolon16 t)]
  have htail : readGroups 0 7 (showRadix 16 65535 ++ (':' :: (showIpv4 v.toNat ++ rest))) = ([65535, v.toNat / 65536, v.toNat % 65536], true, rest) := by
    unfold readGroups
    simp only [readSep, if_pos, show (0 : Nat) < 6 by omega]
    rw [readIpv4_noDigit (by
      have : showRadix 16 65535 = "ffff".toList := by decide
      rw [this]
      exact noDigit_cons (by decide))]
    simp only
    rw [readGroup_show (by omega) (hcolon16 _)]
    simp only
    unfold readGroups
    simp only [readSep, show (0 : Nat) < 5 by omega, if_pos, Nat.zero_add, Nat.one_ne_zero, if_false, readChar]
    rw [readIpv4_show v.isLt h.noDigit10]
  unfold readIpv6
  simp only [hhead, List.length_nil, readChar, if_pos, Nat.sub_zero, htail]
  rw [if_neg (by omega)]
  simp only [Bool.false_eq_true, if_false, List.length_cons, List.length_nil, List.nil_append]
  rw [hval]
  have := v.isLt
  simp [ofSegments, List.replicate]
  omega

theorem readIpv6_show (a : BitVec 128) {rest : List Char} (h : EndV6 rest) : readIpv6 (showIpv6 a ++ rest) = some (a.toNat, rest) := by
  cases hm : toV4Mapped a with
  | none => exact readIpv6_plain a hm h
  | some v => exact readIpv6_mapped a v hm h

theorem showIpv6_chars (a : BitVec 128) (hm : toV4Mapped a = none) : ∀ c ∈ showIpv6 a, c ∈ "0123456789abcdef:".toList := by
  unfold showIpv6
  rw [hm]
  simp only
  split
  · intro c hc
    simp only [List.mem_append] at hc
    rcases hc with (hc | hc) | hc
    · exact showGroups_chars _ c hc
    · have : ∀ c ∈ "::".toList, c ∈ "0123456789abcdef:".toList := by decide
      exact this c hc
    · exact showGroups_chars _ c hc
  · exact showGroups_chars _

theorem readIpv4_showIpv6 (a : BitVec 128) {rest : List Char} (h : EndV6 rest) : readIpv4 (showIpv6 a ++ rest) = none := by
  cases hm : toV4Mapped a with
  | none =>
    apply readIpv4_noDot
    intro hd
    rcases List.mem_append.1 hd with hd | hd
    · exact noDot_of_chars (showIpv6_chars a hm) hd
    · exact h.1 hd
  | some v =>
    apply readIpv4_noDigit
    unfold showIpv6
    rw [hm]
    exact noDigit_cons (by decide)

/-! ### Colons -/

theorem count_takeWhile_zero {p : Char → Bool} (hp : p ':' = false) (t : List Char) : (t.takeWhile p).count ':' = 0 := by
  rw [List.count_eq_zero]
  intro hm
  have := List.all_takeWhile (l := t) (p := p)
  rw [List.all_eq_true] at this
  have := this _ hm
  rw [hp] at this
  cases this

theorem readNumber_colons {radix bound : Nat} {m : Option Nat} {az : Bool} {t t' : List Char} {n : Nat} (hr : toDigit radix ':' = none)
    (h : readNumber radix m az bound t = some (n, t')) : t'.count ':' = t.count ':' := by
  unfold readNumber at h
  simp only at h
  split at h
  · cases h
  · split at h
    · cases h
    · split at h
      · cases h
      · split at h
        · cases h
        · cases h
          have hz := count_takeWhile_zero (p := fun c => (toDigit radix c).isSome) (by simp [hr]) t
          conv => rhs; rw [← List.take_append_drop (t.takeWhile (fun c => (toDigit radix c).isSome)).length t]
          rw [List.prefix_iff_eq_take.1 (List.takeWhile_prefix (l := t) (fun c => (toDigit radix c).isSome))] at hz
          rw [List.count_append, hz]
          omega

theorem readChar_some {c : Char} {t t' : List Char} (h : readChar c t = some t') : t = c :: t' := by
  cases t with
  | nil => cases h
  | cons d t =>
    by_cases hc : d = c
    · simp only [readChar, if_pos hc, Option.some.injEq] at h
      rw [hc, h]
    · simp only [readChar, if_neg hc] at h
      cases h

theorem readSep_octet_colons {i : Nat} {t t' : List Char} {n : Nat} (h : readSep '.' i readOctet t = some (n, t')) : t'.count ':' = t.count ':' := by
  unfold readSep at h
  split at h
  · exact readNumber_colons (by decide) h
  · cases hc : readChar '.' t with
    | none => rw [hc] at h; cases h
    | some t1 =>
      rw [hc] at h
      rw [readChar_some hc, List.count_cons_of_ne (by decide)]
      exact readNumber_colons (by decide) h

theorem readIpv4_colons {t t' : List Char} {n : Nat} (h : readIpv4 t = some (n, t')) : t'.count ':' = t.count ':' := by
  unfold readIpv4 at h
  cases h1 : readSep '.' 0 readOctet t with
  | none => rw [h1] at h; cases h
  | some x1 =>
    rw [h1] at h
    simp only at h
    cases h2 : readSep '.' 1 readOctet x1.2 with
    | none => rw [h2] at h; cases h
    | some x2 =>
      rw [h2] at h
      simp only at h
      cases h3 : readSep '.' 2 readOctet x2.2 with
      | none => rw [h3] at h; cases h
      | some x3 =>
        rw [h3] at h
        simp only at h
        cases h4 : readSep '.' 3 readOctet x3.2 with
        | none => rw [h4] at h; cases h
        | some x4 =>
          rw [h4] at h
          cases h
          rw [readSep_octet_colons h4, readSep_octet_colons h3, readSep_octet_colons h2, readSep_octet_colons h1]

theorem readSep_colons {α : Type} {i : Nat} {inner : List Char → Option (α × List Char)}
    (hin : ∀ t x t', inner t = some (x, t') → t'.count ':' = t.count ':') {t t' : List Char} {x : α}
    (h : readSep ':' i inner t = some (x, t')) : t'.count ':' + (if i = 0 then 0 else 1) = t.count ':' := by
  unfold readSep at h
  by_cases hi : i = 0
  · rw [if_pos hi] at h ⊢
    exact hin _ _ _ h
  · rw [if_neg hi] at h ⊢
    cases hc : readChar ':' t with
    | none => rw [hc] at h; cases h
    | some t1 =>
      rw [hc] at h
      rw [readChar_some hc, List.count_cons_self, hin _ _ _ h]

theorem readGroups_colons (i left : Nat) (t : List Char) : (readGroups i left t).2.2.count ':' + (readGroups i left t).1.length ≤
    t.count ':' + (if i = 0 then 1 else 0) + (if (readGroups i left t).2.1 then 1 else 0) ∧ (readGroups i left t).2.2.count ':' ≤ t.count ':' := by
  induction left generalizing i t with
  | zero => simp [readGroups]
  | succ left ih =>
    unfold readGroups
    cases h4 : (if 0 < left then readSep ':' i readIpv4 t else none) with
    | some x =>
      obtain ⟨v, t'⟩ := x
      have h4 : readSep ':' i readIpv4 t = some (v, t') := by
        split at h4
        · exact h4
        · cases h4
      have := readSep_colons (fun _ _ _ h => readIpv4_colons h) h4
      simp only [List.length_cons, List.length_nil, if_true]
      split at this <;> simp_all <;> omega
    | none =>
      simp only
      cases hg : readSep ':' i readGroup t with
      | none => simp
      | some x =>
        obtain ⟨g, t'⟩ := x
        have hc := readSep_colons (fun _ _ _ h => readNumber_colons (by decide) h) hg
        have := ih (i + 1) t'
        simp only [Nat.succ_ne_zero, if_false, List.length_cons] at this ⊢
        by_cases hi : i = 0
        · rw [if_pos hi] at hc ⊢; omega
        · rw [if_neg hi] at hc ⊢; omega

theorem readIpv6_colons {t t' : List Char} {n : Nat} (h : readIpv6 t = some (n, t')) : t'.count ':' + 2 ≤ t.count ':' := by
  unfold readIpv6 at h
  have hb := readGroups_colons 0 8 t
  simp only at h
  split at h
  · rename_i h8
    cases h
    rw [h8] at hb
    have : (if (readGroups 0 8 t).2.1 = true then 1 else 0) ≤ 1 := by split <;> omega
    simp only [if_true] at hb
    omega
  · split at h
    · cases h
    · cases h1 : readChar ':' (readGroups 0 8 t).2.2 with
      | none => rw [h1] at h; cases h
      | some t1 =>
        rw [h1] at h
        simp only at h
        cases h2 : readChar ':' t1 with
        | none => rw [h2] at h; cases h
        | some t2 =>
          rw [h2] at h
          cases h
          have h1 := readChar_some h1
          have h2 := readChar_some h2
          have := readGroups_colons 0 (7 - (readGroups 0 8 t).1.length) t2
          rw [h1, h2, List.count_cons_self, List.count_cons_self] at hb
          omega

/-- An IP address in text form has no colon (IPv4) or at least two (IPv6). -/
theorem parseIp_colons {t : List Char} {ip : Ip} (h : parseIp t = some ip) : t.count ':' ≠ 1 := by
  unfold parseIp readIp at h
  cases h4 : readIpv4 t with
  | some x =>
    rw [h4] at h
    simp only at h
    split at h
    · rename_i hx
      have := readIpv4_colons h4
      simp only [Option.some.injEq, Prod.mk.injEq] at hx
      rw [hx.2] at this
      simp at this
      omega
    · cases h
  | none =>
    rw [h4] at h
    simp only at h
    cases h6 : readIpv6 t with
    | some x =>
      have := readIpv6_colons h6
      omega
    | none =>
      rw [h6] at h
      cases h

theorem rsplitColon_append {host port : List Char} (h : ':' ∉ port) : rsplitColon (host ++ ':' :: port) = some (host, port) := by
  unfold rsplitColon
  rw [if_pos (by simp)]
  have : (host ++ ':' :: port).reverse.takeWhile (· ≠ ':') = port.reverse := by
    rw [show (host ++ ':' :: port).reverse = port.reverse ++ ':' :: host.reverse by simp]
    apply takeWhile_append_stop
    · intro c hc
      simp at hc ⊢
      rintro rfl
      exact h hc
    · intro c hc
      simp at hc
      simp [← hc]
  simp only [this, List.reverse_reverse, Option.some.injEq, Prod.mk.injEq, and_true]
  rw [show (host ++ ':' :: port).length - port.length - 1 = host.length by simp; omega, List.take_left]

theorem rsplitColon_none {t : List Char} (h : ':' ∉ t) : rsplitColon t = none := if_neg h

theorem exists_last_colon {t : List Char} (h : ':' ∈ t) : ∃ host port, ':' ∉ port ∧ t = host ++ ':' :: port := by
  induction t with
  | nil => cases h
  | cons c t ih =>
    by_cases ht : ':' ∈ t
    · obtain ⟨host, port, hp, rfl⟩ := ih ht
      exact ⟨c :: host, port, hp, rfl⟩
    · rcases List.mem_cons.1 h with h | h
      · subst h
        exact ⟨[], t, ht, rfl⟩
      · exact absurd h ht

/-! ### Socket addresses -/

theorem readPort_show {p : Nat} (hp : p < 65536) : readPort (':' :: showRadix 10 p) = some (p, []) := by
  have := readNumber_show (radix := 10) (n := p) (bound := 65536) (m := none) (az := true) (by omega) (by omega) noDigit_nil hp nofun
  rw [List.append_nil] at this
  simp only [readPort, readChar, if_pos, this]

theorem show_noDot (n : Nat) : '.' ∉ showRadix 10 n := by
  intro h
  have := show_chars (by omega) (by omega) _ h
  revert this
  decide

theorem parseSockAddr_show (s : SockAddr) (hp : s.port < 65536) : parseSockAddr (showSockAddr s) = some s := by
  obtain ⟨ip, p⟩ := s
  cases ip with
  | v4 a =>
    have : readSockV4 (showSockAddr ⟨.v4 a, p⟩) = some (⟨.v4 a, p⟩, []) := by
      unfold readSockV4 showSockAddr
      simp only
      rw [readIpv4_show a.isLt (noDigit_cons (by decide))]
      simp only [readPort_show hp]
      simp
    unfold parseSockAddr
    rw [this]
  | v6 a =>
    have h4 : readSockV4 (showSockAddr ⟨.v6 a, p⟩) = none := by
      unfold readSockV4 showSockAddr
      rw [readIpv4_noDigit (by exact noDigit_cons (by decide))]
    have h6 : readSockV6 (showSockAddr ⟨.v6 a, p⟩) = some (⟨.v6 a, p⟩, []) := by
      unfold readSockV6 showSockAddr
      have hend : EndV6 ("]:".toList ++ showRadix 10 p) := ⟨by simp [show_noDot], Or.inr ⟨_, rfl⟩⟩
      have := readIpv6_show a hend
      simp only [readChar, List.cons_append, List.append_assoc, if_pos, this]
      have hsk : skipScope ("]:".toList ++ showRadix 10 p) = ']' :: ':' :: showRadix 10 p := by
        rw [show "]:".toList ++ showRadix 10 p = ']' :: ':' :: showRadix 10 p from rfl]
        simp [skipScope, readChar]
      rw [hsk]
      simp only [if_pos, readPort_show hp]
      simp
    unfold parseSockAddr
    rw [h4, h6]

theorem parseU16_show {p : Nat} (hp : p < 65536) : parseU16 (showRadix 10 p) = some p := by
  have hd : ∀ c ∈ showRadix 10 p, (toDigit 10 c).isSome = true := by
    intro c hc
    obtain ⟨d, hd, rfl⟩ := isDigit_of_mem_show (by omega) (by omega) c hc
    simp [toDigit_digitChar (radix := 10) (by omega) hd]
  have hplus : stripPlus (showRadix 10 p) = showRadix 10 p := by
    cases hs : showRadix 10 p with
    | nil => rfl
    | cons c t =>
      have hc := hd c (by rw [hs]; simp)
      have : c ≠ '+' := by rintro rfl; exact absurd hc (by decide)
      simp only [stripPlus, if_neg this]
  unfold parseU16
  rw [hplus]
  simp only
  rw [if_pos ⟨show_ne_nil _ _, by rw [List.all_eq_true]; exact hd, by rw [ofDigits_show (by omega) (by omega)]; exact hp⟩, ofDigits_show (by omega) (by omega)]

theorem show_noColon (n : Nat) : ':' ∉ showRadix 10 n := by
  intro h
  have := show_chars (by omega) (by omega) _ h
  revert this
  decide

theorem parseU16_digits {t : List Char} {p : Nat} (h : parseU16 t = some p) : ':' ∉ t ∧ t ≠ [] := by
  unfold parseU16 at h
  simp only at h
  by_cases hc : stripPlus t ≠ [] ∧ (stripPlus t).all (fun c => (toDigit 10 c).isSome) = true ∧ ofDigits 10 (stripPlus t) < 65536
  · obtain ⟨h1, h2, _⟩ := hc
    rw [List.all_eq_true] at h2
    cases t with
    | nil => exact absurd rfl h1
    | cons c t =>
      refine ⟨?_, by simp⟩
      intro hm
      have hin : ':' ∈ stripPlus (c :: t) := by
        unfold stripPlus
        simp only
        split
        · rename_i hp
          subst hp
          rcases List.mem_cons.1 hm with hm | hm
          · cases hm
          · exact hm
        · exact hm
      exact absurd (h2 _ hin) (by decide)
  · rw [if_neg hc] at h
    cases h

end Ruroco
