import Verif.Props.ServerLog
import Verif.Spec.Refusal

/-!
# C124: the texts of refusals
-/

namespace Ruroco

open Spec (PortOk LooksAccepted)

/-- Which of the thirteen it is. -/
def Refusal.nr : Refusal → Nat
  | .badSize .. => 0
  | .rateIp .. => 1
  | .rateGlobal _ => 2
  | .unknownKey _ => 3
  | .unopened => 4
  | .badLength => 5
  | .clock => 6
  | .version _ => 7
  | .replayed .. => 8
  | .future .. => 9
  | .host .. => 10
  | .source .. => 11
  | .save => 12

/-- The words it begins with. -/
def refusalHead : Nat → List Char
  | 0 => "Invalid read count ".toList
  | 1 => "Rate limit exceeded for ".toList
  | 2 => "Global rate limit exceeded: more than ".toList
  | 3 => "Could not find key for id ".toList
  | 4 => "Could not finalize decryption (tag mismatch)".toList
  | 5 => "Plaintext length mismatch".toList
  | 6 => "system clock before epoch".toList
  | 7 => "Unsupported protocol version ".toList
  | 8 => "Invalid counter for key ".toList
  | 9 => "Future counter for key ".toList
  | 10 => "Invalid host IP for key ".toList
  | 11 => "Invalid source IP for key ".toList
  | _ => "Could not update block list".toList

theorem nr_lt (x : Refusal) : x.nr < 13 := by cases x <;> simp [Refusal.nr]

theorem heads_apart : ∀ i < 13, ∀ j < 13, (refusalHead i).isPrefixOf (refusalHead j) = true → i = j := by decide +kernel

theorem pre_app {a b : List Char} (c : List Char) (h : a <+: b) : a <+: b ++ c := h.trans (List.prefix_append _ _)

theorem eq_badSize (count : Nat) (src : SockAddr) : (Refusal.badSize count src).text = "Invalid read count ".toList ++ showRadix 10 count ++ ", expected 94 from ".toList ++ showSockAddr src := rfl
theorem eq_rateIp (ip : Ip) (max : Nat) : (Refusal.rateIp ip max).text = "Rate limit exceeded for ".toList ++ showIp ip ++ ": more than ".toList ++ showRadix 10 max ++ " requests per second".toList := rfl
theorem eq_rateGlobal (max : Nat) : (Refusal.rateGlobal max).text = "Global rate limit exceeded: more than ".toList ++ showRadix 10 max ++ " requests per second".toList := rfl
theorem eq_unknownKey (id : List Byte) : (Refusal.unknownKey id).text = "Could not find key for id ".toList ++ showHexList id := rfl
theorem eq_unopened : Refusal.unopened.text = "Could not finalize decryption (tag mismatch)".toList := rfl
theorem eq_badLength : Refusal.badLength.text = "Plaintext length mismatch".toList := rfl
theorem eq_clock : Refusal.clock.text = "system clock before epoch".toList := rfl
theorem eq_version (v : Byte) : (Refusal.version v).text = "Unsupported protocol version ".toList ++ showRadix 10 v.toNat ++ ", expected 1".toList := rfl
theorem eq_replayed (id : List Byte) (counter : U128) (stored : Option U128) : (Refusal.replayed id counter stored).text = "Invalid counter for key ".toList ++ showHexList id ++ " - ".toList ++ showRadix 10 counter.toNat ++ " is on blocklist, expected > ".toList ++ showOptNat (stored.map BitVec.toNat) := rfl
theorem eq_future (id : List Byte) (counter max : U128) : (Refusal.future id counter max).text = "Future counter for key ".toList ++ showHexList id ++ " - ".toList ++ showRadix 10 counter.toNat ++ " exceeds now + skew (".toList ++ showRadix 10 max.toNat ++ "); not updating blocklist".toList := rfl
theorem eq_host (id : List Byte) (ips : List Ip) (dst : Ip) : (Refusal.host id ips dst).text = "Invalid host IP for key ".toList ++ showHexList id ++ " - expected [".toList ++ showIpItems ips ++ "] to contain ".toList ++ showIp dst := rfl
theorem eq_source (id : List Byte) (claimed : Option Ip) (actual : Ip) : (Refusal.source id claimed actual).text = "Invalid source IP for key ".toList ++ showHexList id ++ " - expected ".toList ++ showClaimed claimed ++ ", actual ".toList ++ showIp actual := rfl
theorem eq_save : Refusal.save.text = "Could not update block list".toList := rfl

theorem hp_of {x : Refusal} {h t : List Char} (e1 : refusalHead x.nr = h) (e2 : x.text = t) (hp : h <+: t) : refusalHead x.nr <+: x.text := by
  rw [e1, e2]; exact hp

theorem head_prefix (x : Refusal) : refusalHead x.nr <+: x.text := by
  cases x with
  | badSize n a => exact hp_of rfl (eq_badSize n a) (pre_app _ (pre_app _ (List.prefix_append _ _)))
  | rateIp ip n => exact hp_of rfl (eq_rateIp ip n) (pre_app _ (pre_app _ (pre_app _ (List.prefix_append _ _))))
  | rateGlobal n => exact hp_of rfl (eq_rateGlobal n) (pre_app _ (List.prefix_append _ _))
  | unknownKey id => exact hp_of rfl (eq_unknownKey id) (List.prefix_append _ _)
  | unopened => exact hp_of rfl eq_unopened (List.prefix_refl _)
  | badLength => exact hp_of rfl eq_badLength (List.prefix_refl _)
  | clock => exact hp_of rfl eq_clock (List.prefix_refl _)
  | version v => exact hp_of rfl (eq_version v) (pre_app _ (List.prefix_append _ _))
  | replayed id c v => exact hp_of rfl (eq_replayed id c v) (pre_app _ (pre_app _ (pre_app _ (pre_app _ (List.prefix_append _ _)))))
  | future id c v => exact hp_of rfl (eq_future id c v) (pre_app _ (pre_app _ (pre_app _ (pre_app _ (pre_app _ (List.prefix_append _ _))))))
  | host id ips d => exact hp_of rfl (eq_host id ips d) (pre_app _ (pre_app _ (pre_app _ (pre_app _ (List.prefix_append _ _)))))
  | source id c a => exact hp_of rfl (eq_source id c a) (pre_app _ (pre_app _ (pre_app _ (pre_app _ (List.prefix_append _ _)))))
  | save => exact hp_of rfl eq_save (List.prefix_refl _)

theorem throttled_prefix (t : List Char) (n : Nat) : t <+: throttledText t n := by
  unfold throttledText
  split
  · rw [List.append_assoc, List.append_assoc]; exact List.prefix_append _ _
  · exact List.prefix_refl _

theorem same_nr {x y : Refusal} {t : List Char} (h1 : refusalHead x.nr <+: t) (h2 : refusalHead y.nr <+: t) : x.nr = y.nr := by
  rcases Nat.le_total (refusalHead x.nr).length (refusalHead y.nr).length with hl | hl
  · exact heads_apart _ (nr_lt x) _ (nr_lt y) (List.isPrefixOf_iff_prefix.2 (List.prefix_of_prefix_length_le h1 h2 hl))
  · exact (heads_apart _ (nr_lt y) _ (nr_lt x) (List.isPrefixOf_iff_prefix.2 (List.prefix_of_prefix_length_le h2 h1 hl))).symm

/-! ## Reading the values off -/

theorem cut_at_last {c : Char} {a b x y : List Char} (hx : c ∉ x) (hy : c ∉ y) (h : a ++ c :: x = b ++ c :: y) : a = b ∧ x = y := by
  have := congrArg List.reverse h
  simp only [List.reverse_append, List.reverse_cons, List.append_assoc, List.singleton_append] at this
  obtain ⟨h1, h2⟩ := cut_at (by simpa using hx) (by simpa using hy) this
  exact ⟨List.reverse_inj.1 h2, List.reverse_inj.1 h1⟩

theorem hexList_cut {id id' : List Byte} {x y : List Char} (h : showHexList id ++ x = showHexList id' ++ y) : id = id' ∧ x = y := by
  unfold showHexList at h
  simp only [List.append_assoc, List.cons_append, List.cons.injEq, true_and] at h
  obtain ⟨h1, h2⟩ := cut_at (fun hm => absurd (showHexItems_chars id _ hm) (by decide)) (fun hm => absurd (showHexItems_chars id' _ hm) (by decide)) h
  exact ⟨showHexItems_injective _ _ h1, h2⟩

theorem dec_cut {m n : Nat} {c : Char} {x y : List Char} (hc : c ∉ "0123456789abcdef".toList) (h : showRadix 10 m ++ c :: x = showRadix 10 n ++ c :: y) : m = n ∧ x = y := by
  obtain ⟨h1, h2⟩ := cut_at (show10_notMem _ hc) (show10_notMem _ hc) h
  exact ⟨show10_injective h1, h2⟩

theorem ip_cut {a b : Ip} {c : Char} {x y : List Char} (hc : c ∈ " \t\n\r'\"`$\\;&|<>(){}[]*?!#~=%^-+/,@_\x00".toList) (h : showIp a ++ c :: x = showIp b ++ c :: y) : a = b ∧ x = y := by
  obtain ⟨h1, h2⟩ := cut_at (fun hm => C47_no_shell_syntax a _ hm hc) (fun hm => C47_no_shell_syntax b _ hm hc) h
  exact ⟨C47_injective _ _ h1, h2⟩

theorem showIp_ne_nil (a : Ip) : showIp a ≠ [] := by
  intro h
  have := C48_parse_show a
  rw [h] at this
  have h2 : parseIp [] = none := by decide
  rw [h2] at this
  cases this

theorem showIpItems_chars (l : List Ip) : ']' ∉ showIpItems l ∧ '\n' ∉ showIpItems l := by
  induction l with
  | nil => exact ⟨by simp [showIpItems], by simp [showIpItems]⟩
  | cons a l ih =>
    have h1 : ']' ∉ showIp a := fun hm => C47_no_shell_syntax a _ hm (by decide)
    have h2 : '\n' ∉ showIp a := fun hm => C47_no_shell_syntax a _ hm (by decide)
    cases l with
    | nil => exact ⟨h1, h2⟩
    | cons b l =>
      rw [showIpItems]
      have e : ∀ c ∈ ", ".toList, c ≠ ']' ∧ c ≠ '\n' := by decide
      constructor <;> intro hm <;> rcases List.mem_append.1 hm with hm | hm
      · rcases List.mem_append.1 hm with hm | hm
        · exact h1 hm
        · exact (e _ hm).1 rfl
      · exact ih.1 hm
      · rcases List.mem_append.1 hm with hm | hm
        · exact h2 hm
        · exact (e _ hm).2 rfl
      · exact ih.2 hm

theorem comma_cut {a : List Char} {rest : List Char} : a ++ ", ".toList ++ rest = a ++ ',' :: (' ' :: rest) := by
  rw [List.append_assoc]; rfl

theorem showIpItems_injective (l m : List Ip) (h : showIpItems l = showIpItems m) : l = m := by
  have hc : ∀ a : Ip, ',' ∉ showIp a := fun a hm => C47_no_shell_syntax a _ hm (by decide)
  induction l generalizing m with
  | nil =>
    cases m with
    | nil => rfl
    | cons b m =>
      cases m with
      | nil => exact absurd h.symm (showIp_ne_nil b)
      | cons c m =>
        rw [showIpItems, showIpItems, comma_cut] at h
        exact absurd (List.append_eq_nil_iff.1 h.symm).1 (showIp_ne_nil b)
  | cons a l ih =>
    cases m with
    | nil =>
      cases l with
      | nil => exact absurd h (showIp_ne_nil a)
      | cons c l =>
        rw [showIpItems, showIpItems, comma_cut] at h
        exact absurd (List.append_eq_nil_iff.1 h).1 (showIp_ne_nil a)
    | cons b m =>
      cases l with
      | nil =>
        cases m with
        | nil => rw [C47_injective a b h]
        | cons d m =>
          rw [showIpItems, showIpItems, comma_cut] at h
          exact absurd (h ▸ List.mem_append_right _ (List.mem_cons_self)) (hc a)
      | cons c l =>
        cases m with
        | nil =>
          rw [showIpItems, showIpItems, comma_cut] at h
          exact absurd (h ▸ List.mem_append_right _ (List.mem_cons_self)) (hc b)
        | cons d m =>
          rw [showIpItems, showIpItems, comma_cut, comma_cut] at h
          obtain ⟨h1, h2⟩ := ip_cut (by decide) h
          rw [h1, ih _ (List.cons.inj h2).2]

theorem showClaimed_cut {a b : Option Ip} {x y : List Char} (h : showClaimed a ++ ',' :: x = showClaimed b ++ ',' :: y) : a = b ∧ x = y := by
  have hc : ∀ o : Option Ip, ',' ∉ showClaimed o := by
    intro o
    cases o with
    | none => decide
    | some ip => exact fun hm => C47_no_shell_syntax ip _ hm (by decide)
  have hn : ∀ ip : Ip, showIp ip ≠ "none".toList := by
    intro ip h
    have := C48_parse_show ip
    rw [h] at this
    have h2 : parseIp "none".toList = none := by decide
    rw [h2] at this
    cases this
  obtain ⟨h1, h2⟩ := cut_at (hc a) (hc b) h
  refine ⟨?_, h2⟩
  cases a with
  | none =>
    cases b with
    | none => rfl
    | some b => exact absurd h1.symm (hn b)
  | some a =>
    cases b with
    | none => exact absurd h1 (hn a)
    | some b => rw [C47_injective a b h1]

theorem lit {a b : List Char} (p : List Char) (h : p ++ a = p ++ b) : a = b := (List.append_cancel_left_eq _ _ _).mp h

theorem text_badSize {n : Nat} {a : SockAddr} {m : Nat} {b : SockAddr} (hx : a.port < 65536) (hy : b.port < 65536) (h : (Refusal.badSize n a).text = (Refusal.badSize m b).text) : Refusal.badSize n a = .badSize m b := by
  rw [eq_badSize, eq_badSize] at h
  simp only [List.append_assoc] at h
  have h := lit _ h
  have e : ", expected 94 from ".toList = ',' :: " expected 94 from ".toList := by decide
  rw [e, List.cons_append, List.cons_append] at h
  obtain ⟨hn, h2⟩ := dec_cut (by decide) h
  subst hn
  clear h
  have h := lit _ h2
  have h1 := C48_parse_show_socket a hx
  rw [h, C48_parse_show_socket b hy] at h1
  cases h1
  rfl

theorem text_rateIp {a : Ip} {n : Nat} {b : Ip} {m : Nat} (h : (Refusal.rateIp a n).text = (Refusal.rateIp b m).text) : Refusal.rateIp a n = .rateIp b m := by
  rw [eq_rateIp, eq_rateIp] at h
  simp only [List.append_assoc] at h
  have h := lit _ h
  have e : ∀ x : List Char, ": more than ".toList ++ x = [':'] ++ ' ' :: ("more than ".toList ++ x) := fun _ => rfl
  have hs : ∀ ip : Ip, ' ' ∉ showIp ip ++ [':'] := by
    intro ip hm
    rcases List.mem_append.1 hm with hm | hm
    · exact C47_no_shell_syntax ip _ hm (by decide)
    · revert hm; decide
  rw [e, e, ← List.append_assoc (showIp a), ← List.append_assoc (showIp b)] at h
  obtain ⟨h1, h⟩ := cut_at (hs a) (hs b) h
  have h1 := C47_injective _ _ ((List.append_cancel_right_eq _ _ _).mp h1)
  have h := (List.append_cancel_right_eq _ _ _).mp (lit _ h)
  rw [h1, show10_injective h]

theorem text_rateGlobal {n m : Nat} (h : (Refusal.rateGlobal n).text = (Refusal.rateGlobal m).text) : Refusal.rateGlobal n = .rateGlobal m := by
  rw [eq_rateGlobal, eq_rateGlobal] at h
  simp only [List.append_assoc] at h
  rw [show10_injective ((List.append_cancel_right_eq _ _ _).mp (lit _ h))]

theorem text_unknownKey {a b : List Byte} (h : (Refusal.unknownKey a).text = (Refusal.unknownKey b).text) : Refusal.unknownKey a = .unknownKey b := by
  rw [eq_unknownKey, eq_unknownKey] at h
  have h := lit _ h
  rw [← List.append_nil (showHexList a), ← List.append_nil (showHexList b)] at h
  rw [(hexList_cut h).1]

theorem text_version {a b : Byte} (h : (Refusal.version a).text = (Refusal.version b).text) : Refusal.version a = .version b := by
  rw [eq_version, eq_version] at h
  simp only [List.append_assoc] at h
  rw [BitVec.eq_of_toNat_eq (show10_injective ((List.append_cancel_right_eq _ _ _).mp (lit _ h)))]

theorem text_replayed {i : List Byte} {c : U128} {v : Option U128} {i' : List Byte} {c' : U128} {v' : Option U128} (h : (Refusal.replayed i c v).text = (Refusal.replayed i' c' v').text) : Refusal.replayed i c v = .replayed i' c' v' := by
  rw [eq_replayed, eq_replayed] at h
  simp only [List.append_assoc] at h
  obtain ⟨hi, h0⟩ := hexList_cut (lit _ h)
  subst hi
  clear h
  have h := lit _ h0
  clear h0
  have e : ∀ x : List Char, " is on blocklist, expected > ".toList ++ x = ' ' :: ("is on blocklist, expected > ".toList ++ x) := fun _ => rfl
  rw [e, e] at h
  obtain ⟨h1, h⟩ := dec_cut (by decide) h
  have h := showOptNat_injective (lit _ h)
  have h1 := BitVec.eq_of_toNat_eq h1
  have hv : v = v' := by
    cases v <;> cases v' <;> simp at h
    · rfl
    · rw [BitVec.eq_of_toNat_eq h]
  rw [h1, hv]

theorem text_future {i : List Byte} {c v : U128} {i' : List Byte} {c' v' : U128} (h : (Refusal.future i c v).text = (Refusal.future i' c' v').text) : Refusal.future i c v = .future i' c' v' := by
  rw [eq_future, eq_future] at h
  simp only [List.append_assoc] at h
  obtain ⟨hi, h0⟩ := hexList_cut (lit _ h)
  subst hi
  clear h
  have h := lit _ h0
  clear h0
  have e : ∀ x : List Char, " exceeds now + skew (".toList ++ x = ' ' :: ("exceeds now + skew (".toList ++ x) := fun _ => rfl
  rw [e, e] at h
  obtain ⟨h1, h⟩ := dec_cut (by decide) h
  have h2 := show10_injective ((List.append_cancel_right_eq _ _ _).mp (lit _ h))
  rw [BitVec.eq_of_toNat_eq h1, BitVec.eq_of_toNat_eq h2]

theorem text_host {i : List Byte} {l : List Ip} {a : Ip} {i' : List Byte} {l' : List Ip} {a' : Ip} (h : (Refusal.host i l a).text = (Refusal.host i' l' a').text) : Refusal.host i l a = .host i' l' a' := by
  rw [eq_host, eq_host] at h
  simp only [List.append_assoc] at h
  obtain ⟨hi, h0⟩ := hexList_cut (lit _ h)
  subst hi
  clear h
  have h := lit _ h0
  clear h0
  have e : ∀ x : List Char, "] to contain ".toList ++ x = ']' :: (" to contain ".toList ++ x) := fun _ => rfl
  rw [e, e] at h
  obtain ⟨h1, h⟩ := cut_at (showIpItems_chars l).1 (showIpItems_chars l').1 h
  rw [showIpItems_injective _ _ h1, C47_injective _ _ (lit _ h)]

theorem text_source {i : List Byte} {c : Option Ip} {a : Ip} {i' : List Byte} {c' : Option Ip} {a' : Ip} (h : (Refusal.source i c a).text = (Refusal.source i' c' a').text) : Refusal.source i c a = .source i' c' a' := by
  rw [eq_source, eq_source] at h
  simp only [List.append_assoc] at h
  obtain ⟨hi, h0⟩ := hexList_cut (lit _ h)
  subst hi
  clear h
  have h := lit _ h0
  clear h0
  have e : ∀ x : List Char, ", actual ".toList ++ x = ',' :: (" actual ".toList ++ x) := fun _ => rfl
  rw [e, e] at h
  obtain ⟨h1, h⟩ := showClaimed_cut h
  rw [h1, C47_injective _ _ (lit _ h)]

/-- A refusal can be read off its text. -/
theorem text_injective {x y : Refusal} (hx : PortOk x) (hy : PortOk y) (h : x.text = y.text) : x = y := by
  have hnr : x.nr = y.nr := same_nr (head_prefix x) (h ▸ head_prefix y)
  cases x <;> cases y <;> first | cases hnr; done | skip
  · exact text_badSize hx hy h
  · exact text_rateIp h
  · exact text_rateGlobal h
  · exact text_unknownKey h
  · rfl
  · rfl
  · rfl
  · exact text_version h
  · exact text_replayed h
  · exact text_future h
  · exact text_host h
  · exact text_source h
  · rfl

/-! ## The number of suppressed lines -/

theorem last_of_suffix {a b : List Char} {c d : Char} (hb : b ≠ []) (h : [c, d] <:+ a ++ b) : d ∈ b := by
  obtain ⟨t, h⟩ := h
  have h1 : (t ++ [c, d]).getLast? = some d := by simp
  rw [h, List.getLast?_append] at h1
  cases hl : b.getLast? with
  | none => exact absurd (List.getLast?_eq_none_iff.1 hl) hb
  | some z =>
    rw [hl] at h1
    cases h1
    exact List.mem_of_getLast? hl

theorem notSuppressed_of {a b : List Char} (hb : b ≠ []) (hn : ')' ∉ b) : ¬ "s)".toList <:+ a ++ b := fun h => hn (last_of_suffix hb h)

theorem notSuppressed (x : Refusal) : ¬ "s)".toList <:+ x.text := by
  cases x with
  | badSize n a =>
    rw [eq_badSize]
    cases a with
    | mk ip port =>
      cases ip with
      | v4 v =>
        rw [showSockAddr]
        dsimp only
        rw [← List.singleton_append, ← List.append_assoc, ← List.append_assoc]
        exact notSuppressed_of (show_ne_nil _ _) (show10_notMem _ (by decide))
      | v6 v =>
        rw [showSockAddr]
        dsimp only
        rw [← List.append_assoc]
        exact notSuppressed_of (show_ne_nil _ _) (show10_notMem _ (by decide))
  | rateIp ip n => rw [eq_rateIp]; exact notSuppressed_of (by decide) (by decide)
  | rateGlobal n => rw [eq_rateGlobal]; exact notSuppressed_of (by decide) (by decide)
  | unknownKey id =>
    rw [eq_unknownKey, showHexList, ← List.append_assoc]
    exact notSuppressed_of (by decide) (by decide)
  | unopened => exact fun h => absurd (List.isSuffixOf_iff_suffix.2 h) (by decide +kernel)
  | badLength => exact fun h => absurd (List.isSuffixOf_iff_suffix.2 h) (by decide +kernel)
  | clock => exact fun h => absurd (List.isSuffixOf_iff_suffix.2 h) (by decide +kernel)
  | version v => rw [eq_version]; exact notSuppressed_of (by decide) (by decide)
  | replayed id c v =>
    rw [eq_replayed]
    cases v with
    | none => exact notSuppressed_of (by decide) (by decide)
    | some v =>
      intro h
      simp only [Option.map_some, showOptNat] at h
      rw [← List.append_assoc] at h
      obtain ⟨t, h⟩ := h
      have e : t ++ "s)".toList = (t ++ ['s']) ++ ")".toList := by rw [List.append_assoc]; rfl
      rw [e] at h
      have h := (List.append_cancel_right_eq _ _ _).mp h
      rw [← List.append_assoc] at h
      have h2 := congrArg List.getLast? h
      rw [List.getLast?_append, List.getLast?_append] at h2
      cases hl : (showRadix 10 v.toNat).getLast? with
      | none => exact show_ne_nil _ _ (List.getLast?_eq_none_iff.1 hl)
      | some z =>
        rw [hl] at h2
        have hz : 's' = z := by simpa using h2
        exact show10_notMem v.toNat (c := 's') (by decide) (hz ▸ List.mem_of_getLast? hl)
  | future id c v =>
    rw [eq_future]
    have e : "); not updating blocklist".toList = ");".toList ++ " not updating blocklist".toList := by decide
    rw [e, ← List.append_assoc]
    exact notSuppressed_of (by decide) (by decide)
  | host id ips d => rw [eq_host]; exact notSuppressed_of (showIp_ne_nil _) (fun hm => C47_no_shell_syntax d _ hm (by decide))
  | source id c a => rw [eq_source]; exact notSuppressed_of (showIp_ne_nil _) (fun hm => C47_no_shell_syntax a _ hm (by decide))
  | save => exact fun h => absurd (List.isSuffixOf_iff_suffix.2 h) (by decide +kernel)

theorem throttled_none (t : List Char) : throttledText t 0 = t := if_neg (by omega)

theorem throttled_some (t : List Char) {n : Nat} (h : 0 < n) : throttledText t n = (t ++ [' ']) ++ '(' :: (showRadix 10 n ++ " more suppressed in the last 5s)".toList) := by
  unfold throttledText
  rw [if_pos h, List.append_assoc, List.append_assoc, List.append_assoc]
  rfl

/-- **C124**: the text tells reason, values and how many were suppressed. -/
theorem C124_text_tells_all (x y : Refusal) (n m : Nat) (hx : PortOk x) (hy : PortOk y) (h : throttledText x.text n = throttledText y.text m) : x = y ∧ n = m := by
  have sup : ∀ (t : List Char) (k : Nat), 0 < k → "s)".toList <:+ throttledText t k := by
    intro t k hk
    have e : " more suppressed in the last 5s)".toList = " more suppressed in the last 5".toList ++ "s)".toList := by decide
    unfold throttledText
    rw [if_pos hk, e, ← List.append_assoc]
    exact List.suffix_append _ _
  have hp : ∀ k : Nat, '(' ∉ showRadix 10 k ++ " more suppressed in the last 5s)".toList := by
    intro k hm
    rcases List.mem_append.1 hm with hm | hm
    · exact show10_notMem k (by decide) hm
    · revert hm; decide
  rcases Nat.eq_zero_or_pos n with rfl | hn
  · rcases Nat.eq_zero_or_pos m with rfl | hm
    · rw [throttled_none, throttled_none] at h
      exact ⟨text_injective hx hy h, rfl⟩
    · rw [throttled_none] at h
      exact absurd (h ▸ sup _ _ hm) (notSuppressed x)
  · rcases Nat.eq_zero_or_pos m with rfl | hm
    · rw [throttled_none] at h
      exact absurd (h ▸ sup _ _ hn) (notSuppressed y)
    · rw [throttled_some _ hn, throttled_some _ hm] at h
      obtain ⟨h1, h2⟩ := cut_at_last (hp n) (hp m) h
      exact ⟨text_injective hx hy ((List.append_cancel_right_eq _ _ _).mp h1), show10_injective ((List.append_cancel_right_eq _ _ _).mp h2)⟩

/-- **C124**: a refusal is one line, whatever the datagram contains. -/
theorem C124_one_line (x : Refusal) (n : Nat) : '\n' ∉ throttledText x.text n := by
  have app : ∀ {a b : List Char}, '\n' ∉ a → '\n' ∉ b → '\n' ∉ a ++ b := fun ha hb hm => (List.mem_append.1 hm).elim ha hb
  have dec := fun n => show10_notMem n (c := '\n') (by decide)
  have ip : ∀ a : Ip, '\n' ∉ showIp a := fun a hm => C47_no_shell_syntax a _ hm (by decide)
  have hex : ∀ k : List Byte, '\n' ∉ showHexList k := by
    intro k
    have : '\n' ∉ showHexItems k := fun hm => absurd (showHexItems_chars k _ hm) (by decide)
    show '\n' ∉ ['['] ++ showHexItems k ++ [']']
    exact app (app (by decide) this) (by decide)
  have ht : '\n' ∉ x.text := by
    cases x with
    | badSize n a =>
      rw [eq_badSize]
      refine app (app (app (by decide) (dec _)) (by decide)) ?_
      cases a with
      | mk a port =>
        cases a with
        | v4 v => exact app (ip (.v4 v)) (app (a := [':']) (by decide) (dec _))
        | v6 v => exact app (app (app (a := ['[']) (by decide) (ip (.v6 v))) (by decide)) (dec _)
    | rateIp a n => rw [eq_rateIp]; exact app (app (app (app (by decide) (ip _)) (by decide)) (dec _)) (by decide)
    | rateGlobal n => rw [eq_rateGlobal]; exact app (app (by decide) (dec _)) (by decide)
    | unknownKey id => rw [eq_unknownKey]; exact app (by decide) (hex _)
    | unopened => rw [eq_unopened]; decide
    | badLength => rw [eq_badLength]; decide
    | clock => rw [eq_clock]; decide
    | version v => rw [eq_version]; exact app (app (by decide) (dec _)) (by decide)
    | replayed id c v => rw [eq_replayed]; exact app (app (app (app (app (by decide) (hex _)) (by decide)) (dec _)) (by decide)) (showOptNat_notMem _ (by decide))
    | future id c v => rw [eq_future]; exact app (app (app (app (app (app (by decide) (hex _)) (by decide)) (dec _)) (by decide)) (dec _)) (by decide)
    | host id ips d => rw [eq_host]; exact app (app (app (app (app (by decide) (hex _)) (by decide)) (showIpItems_chars _).2) (by decide)) (ip _)
    | source id c a =>
      rw [eq_source]
      refine app (app (app (app (app (by decide) (hex _)) (by decide)) ?_) (by decide)) (ip _)
      cases c with
      | none => decide
      | some c => exact ip c
    | save => rw [eq_save]; decide
  unfold throttledText
  split
  · exact app (app (app ht (by decide)) (dec n)) (by decide)
  · exact ht

/-- **C124**: a refusal cannot be taken for the announcement of an accepted request or for its outcome. -/
theorem C124_not_mistaken (x : Refusal) (n : Nat) : ¬ LooksAccepted (throttledText x.text n) := by
  have apart : ∀ g ∈ ["Valid data".toList, "Successfully sent".toList, "Could not send".toList], ∀ i < 13, (refusalHead i).isPrefixOf g = false ∧ g.isPrefixOf (refusalHead i) = false := by decide +kernel
  have key : ∀ g ∈ ["Valid data".toList, "Successfully sent".toList, "Could not send".toList], ¬ g <+: throttledText x.text n := by
    intro g hg hp
    obtain ⟨h1, h2⟩ := apart g hg _ (nr_lt x)
    have hh := (head_prefix x).trans (throttled_prefix x.text n)
    rcases Nat.le_total g.length (refusalHead x.nr).length with hl | hl
    · rw [List.isPrefixOf_iff_prefix.2 (List.prefix_of_prefix_length_le hp hh hl)] at h2
      cases h2
    · rw [List.isPrefixOf_iff_prefix.2 (List.prefix_of_prefix_length_le hh hp hl)] at h1
      cases h1
  rintro (h | h | h)
  · exact key _ (by simp) h
  · exact key _ (by simp) h
  · exact key _ (by simp) h

end Ruroco
