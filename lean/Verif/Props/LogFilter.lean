import Verif.Model.LogLine
import Verif.Props.IpText
import Verif.Spec.Terms.LogFilter

/-!
# C70: the shipped fail2ban filter
-/

namespace Ruroco

theorem Rx.matches_seq {host : List Char → Prop} {a b : Rx} {t : List Char} : (Rx.seq a b).Matches host t ↔ ∃ u v, t = u ++ v ∧ a.Matches host u ∧ b.Matches host v := by
  constructor
  · intro h; cases h; exact ⟨_, _, rfl, ‹_›, ‹_›⟩
  · rintro ⟨u, v, rfl, h1, h2⟩; exact .seq _ _ _ _ h1 h2

theorem Rx.matches_chr {host : List Char → Prop} {p : Char → Bool} {t : List Char} : (Rx.chr p).Matches host t ↔ ∃ c, t = [c] ∧ p c = true := by
  constructor
  · intro h; cases h; exact ⟨_, rfl, ‹_›⟩
  · rintro ⟨c, rfl, h⟩; exact .chr _ _ h

theorem Rx.matches_eps {host : List Char → Prop} {t : List Char} : Rx.eps.Matches host t ↔ t = [] := by
  constructor
  · intro h; cases h; rfl
  · rintro rfl; exact .eps

theorem Rx.matches_lit {host : List Char → Prop} {s t : List Char} : (Rx.lit s).Matches host t ↔ t = s := by
  induction s generalizing t with
  | nil => exact matches_eps
  | cons c s ih =>
    unfold Rx.lit
    rw [matches_seq]
    constructor
    · rintro ⟨u, v, rfl, h1, h2⟩
      obtain ⟨c', rfl, hc⟩ := matches_chr.1 h1
      rw [ih.1 h2, eq_of_beq hc]; rfl
    · rintro rfl
      exact ⟨[c], s, rfl, matches_chr.2 ⟨c, rfl, beq_self_eq_true c⟩, ih.2 rfl⟩

theorem Rx.matches_star_chr {host : List Char → Prop} {p : Char → Bool} {t : List Char} : (Rx.star (.chr p)).Matches host t ↔ ∀ c ∈ t, p c = true := by
  constructor
  · intro h
    generalize hr : Rx.star (.chr p) = r at h
    induction h with
    | stop => nofun
    | step a s t hs _ _ ih =>
      cases hr
      obtain ⟨c, rfl, hc⟩ := matches_chr.1 hs
      intro x hx
      rcases List.mem_cons.1 hx with rfl | hx
      · exact hc
      · exact ih rfl x hx
    | _ => cases hr
  · intro h
    induction t with
    | nil => exact .stop _
    | cons c t ih => exact .step _ [c] t (.chr _ _ (h c (List.mem_cons_self ..))) (ih (fun x hx => h x (List.mem_cons_of_mem _ hx)))

/-- An ASCII digit. -/
def isDig (c : Char) : Bool := '0' ≤ c && c ≤ '9'

theorem Rx.matches_digits {host : List Char → Prop} {t : List Char} : Rx.digits.Matches host t ↔ t ≠ [] ∧ ∀ c ∈ t, isDig c = true := by
  unfold Rx.digits Rx.digit
  rw [matches_seq]
  constructor
  · rintro ⟨u, v, rfl, h1, h2⟩
    obtain ⟨c, rfl, hc⟩ := matches_chr.1 h1
    refine ⟨nofun, fun x hx => ?_⟩
    rcases List.mem_cons.1 hx with rfl | hx
    · exact hc
    · exact matches_star_chr.1 h2 x hx
  · rintro ⟨h0, h⟩
    cases t with
    | nil => exact absurd rfl h0
    | cons c t => exact ⟨[c], t, rfl, matches_chr.2 ⟨c, rfl, h c (List.mem_cons_self ..)⟩, matches_star_chr.2 (fun x hx => h x (List.mem_cons_of_mem _ hx))⟩

theorem Rx.matches_digitN {host : List Char → Prop} {n : Nat} {t : List Char} : (Rx.digitN n).Matches host t ↔ t.length = n ∧ ∀ c ∈ t, isDig c = true := by
  induction n generalizing t with
  | zero =>
    unfold Rx.digitN
    rw [matches_eps]
    constructor
    · rintro rfl; exact ⟨rfl, nofun⟩
    · rintro ⟨h, _⟩; exact List.eq_nil_of_length_eq_zero h
  | succ n ih =>
    unfold Rx.digitN Rx.digit
    rw [matches_seq]
    constructor
    · rintro ⟨u, v, rfl, h1, h2⟩
      obtain ⟨c, rfl, hc⟩ := matches_chr.1 h1
      obtain ⟨h3, h4⟩ := ih.1 h2
      refine ⟨by simp [h3], fun x hx => ?_⟩
      rcases List.mem_cons.1 hx with rfl | hx
      · exact hc
      · exact h4 x hx
    · rintro ⟨h0, h⟩
      cases t with
      | nil => cases h0
      | cons c t => exact ⟨[c], t, rfl, matches_chr.2 ⟨c, rfl, h c (List.mem_cons_self ..)⟩, ih.2 ⟨by simpa using h0, fun x hx => h x (List.mem_cons_of_mem _ hx)⟩⟩

theorem Rx.matches_cat_cons {host : List Char → Prop} {r : Rx} {rs : List Rx} {t : List Char} :
    (Rx.cat (r :: rs)).Matches host t ↔ ∃ u v, t = u ++ v ∧ r.Matches host u ∧ (Rx.cat rs).Matches host v := matches_seq

theorem Rx.matches_cat_append {host : List Char → Prop} {rs ss : List Rx} {t : List Char} :
    (Rx.cat (rs ++ ss)).Matches host t ↔ ∃ u v, t = u ++ v ∧ (Rx.cat rs).Matches host u ∧ (Rx.cat ss).Matches host v := by
  induction rs generalizing t with
  | nil =>
    constructor
    · intro h; exact ⟨[], t, rfl, .eps, h⟩
    · rintro ⟨u, v, rfl, h1, h2⟩; rw [matches_eps.1 h1]; exact h2
  | cons r rs ih =>
    rw [List.cons_append, matches_cat_cons]
    constructor
    · rintro ⟨u, v, rfl, h1, h2⟩
      obtain ⟨u', v', rfl, h3, h4⟩ := ih.1 h2
      exact ⟨u ++ u', v', by simp, matches_cat_cons.2 ⟨u, u', rfl, h1, h3⟩, h4⟩
    · rintro ⟨u, v, rfl, h1, h2⟩
      obtain ⟨u', v', rfl, h3, h4⟩ := matches_cat_cons.1 h1
      exact ⟨u', v' ++ v, by simp, h3, ih.2 ⟨v', v, rfl, h4, h2⟩⟩

/-- What a match of the common beginning looks like. -/
theorem head_match {host : List Char → Prop} {t : List Char} (h : (Rx.cat filterHead).Matches host t) :
    ∃ u p d, t = u ++ "ruroco-server[".toList ++ p ++ "]: [".toList ++ d ++ ['Z'] ∧ (∀ c ∈ p, isDig c = true) ∧ d.length = 19 := by
  unfold filterHead at h
  simp only [Rx.matches_cat_cons, Rx.matches_lit, Rx.matches_digits, Rx.matches_digitN] at h
  obtain ⟨u, _, rfl, -, _, _, rfl, rfl, p, _, rfl, hp, _, _, rfl, rfl, d1, _, rfl, h1, _, _, rfl, rfl, d2, _, rfl, h2, _, _, rfl, rfl, d3, _, rfl, h3, _, _, rfl, rfl, d4, _, rfl, h4, _, _, rfl, rfl,
    d5, _, rfl, h5, _, _, rfl, rfl, d6, _, rfl, h6, _, _, rfl, rfl, h7⟩ := h
  rw [Rx.matches_eps.1 h7]
  refine ⟨u, p, d1 ++ '-' :: d2 ++ '-' :: d3 ++ 'T' :: d4 ++ ':' :: d5 ++ ':' :: d6, by simp, hp.2, ?_⟩
  simp [h1.1, h2.1, h3.1, h4.1, h5.1, h6.1]

/-! ## Where brackets can be -/

/-- No `[` directly after an `r`. -/
structure NoPair (l : List Char) : Prop where
  no : ∀ a b, l ≠ a ++ 'r' :: '[' :: b

theorem noPair_of_notMem {l : List Char} (h : '[' ∉ l) : NoPair l := by
  constructor
  rintro a b rfl
  simp at h

theorem ends_r {a x c : List Char} (h : a ++ ['r'] = x ++ '[' :: c) : ∃ c', c = c' ++ ['r'] := by
  rcases List.eq_nil_or_concat c with rfl | ⟨c', z, rfl⟩
  · have := congrArg List.getLast? h
    simp at this
  · have h : a ++ ['r'] = (x ++ '[' :: c') ++ [z] := by rw [h]; simp
    have := (List.append_inj' h rfl).2
    cases this
    exact ⟨c', by simp⟩

theorem noPair_bracket {x y : List Char} (hx : '[' ∉ x) (hl : x.getLast? ≠ some 'r') (hy : NoPair y) : NoPair (x ++ '[' :: y) := by
  constructor
  intro a b h
  have h : x ++ '[' :: y = (a ++ ['r']) ++ '[' :: b := by rw [h]; simp
  rcases List.append_eq_append_iff.1 h with ⟨c, h1, h2⟩ | ⟨c, h1, h2⟩
  · cases c with
    | nil => rw [List.append_nil] at h1; rw [← h1] at hl; simp at hl
    | cons z c =>
      rw [List.cons_append, List.cons.injEq] at h2
      obtain ⟨rfl, rfl⟩ := h2
      obtain ⟨c', rfl⟩ := ends_r h1
      exact hy.no c' b (by simp)
  · cases c with
    | nil => rw [List.append_nil] at h1; rw [h1] at hl; simp at hl
    | cons z c =>
      rw [List.cons_append, List.cons.injEq] at h2
      obtain ⟨rfl, rfl⟩ := h2
      exact hx (by rw [h1]; simp)

theorem notMem_show (n : Nat) : '[' ∉ showRadix 10 n := fun h => by
  have := show_chars (by decide : 1 < 10) (by decide) _ h
  revert this; decide

theorem notMem_pad (w n : Nat) : '[' ∉ padNat w n := by
  unfold padNat
  simp only [List.mem_append, not_or, List.mem_replicate, not_and]
  exact ⟨fun _ => by decide, notMem_show n⟩

theorem notMem_showIp (ip : Ip) : '[' ∉ showIp ip := fun h => C47_no_shell_syntax ip _ h (by decide)

theorem notMem_seconds (s : Stamp) : '[' ∉ s.showSeconds := by
  unfold Stamp.showSeconds
  simp only [List.mem_append, List.mem_cons, not_or]
  have := notMem_pad
  refine ⟨⟨⟨⟨⟨this _ _, ?_⟩, ?_⟩, ?_⟩, ?_⟩, ?_⟩ <;> exact ⟨by decide, this _ _⟩

theorem notMem_stamp (s : Stamp) : '[' ∉ s.show := by
  unfold Stamp.show
  simp only [List.mem_append, List.mem_cons, not_or]
  exact ⟨⟨notMem_seconds s, by decide, notMem_pad _ _⟩, by decide, nofun⟩

theorem length_pad {w n : Nat} (hw : 0 < w) (h : n < 10 ^ w) : (padNat w n).length = w := by
  have := length_show_le (radix := 10) (by decide) hw h
  unfold padNat
  simp
  omega

theorem length_seconds {s : Stamp} (h : s.Ok) : s.showSeconds.length = 19 := by
  obtain ⟨h1, h2, h3, h4, h5, h6⟩ := h
  unfold Stamp.showSeconds
  simp only [List.length_append, List.length_cons, length_pad (w := 4) (by decide) h1, length_pad (w := 2) (by decide) h2, length_pad (w := 2) (by decide) h3, length_pad (w := 2) (by decide) h4,
    length_pad (w := 2) (by decide) h5, length_pad (w := 2) (by decide) h6]

theorem isDig_show (n : Nat) : ∀ c ∈ showRadix 10 n, isDig c = true := by
  intro c hc
  obtain ⟨d, hd, rfl⟩ := isDigit_of_mem_show (by decide) (by decide) c hc
  have : ∀ d < 10, isDig (Nat.digitChar d) = true := by decide
  exact this d hd

/-- Digits up to the first non-digit are determined. -/
theorem digits_cut {p q x y : List Char} (hp : ∀ c ∈ p, isDig c = true) (hq : ∀ c ∈ q, isDig c = true) (h : p ++ ']' :: x = q ++ ']' :: y) : p = q ∧ x = y := by
  induction p generalizing q with
  | nil =>
    cases q with
    | nil => simp at h; exact ⟨rfl, h⟩
    | cons c q =>
      simp only [List.nil_append, List.cons_append, List.cons.injEq] at h
      have := hq c (List.mem_cons_self ..)
      rw [← h.1] at this
      exact absurd this (by decide)
  | cons a p ih =>
    cases q with
    | nil =>
      simp only [List.nil_append, List.cons_append, List.cons.injEq] at h
      have := hp a (List.mem_cons_self ..)
      rw [h.1] at this
      exact absurd this (by decide)
    | cons c q =>
      simp only [List.cons_append, List.cons.injEq] at h
      obtain ⟨h1, h2⟩ := ih (fun c hc => hp c (List.mem_cons_of_mem _ hc)) (fun c hc => hq c (List.mem_cons_of_mem _ hc)) h.2
      exact ⟨by rw [h.1, h1], h2⟩

/-- The beginning of the filter needs the date in exactly one form. -/
theorem head_forces_date {host : List Char → Prop} {pre date msg t v : List Char} {pid : Nat} (hpre : '[' ∉ pre) (hmsg : NoPair (date ++ " ERROR ] ".toList ++ msg))
    (ht : (Rx.cat filterHead).Matches host t) (h : journalLine pre pid (errorLine date msg) = t ++ v) : ∃ d, d.length = 19 ∧ date ++ " ERROR ] ".toList ++ msg = d ++ 'Z' :: v := by
  obtain ⟨u, p, d, rfl, hp, hd⟩ := head_match ht
  unfold journalLine errorLine at h
  have h : (pre ++ "ruroco-server".toList) ++ '[' :: (showRadix 10 pid ++ "]: [".toList ++ (date ++ " ERROR ] ".toList ++ msg)) =
      (u ++ "ruroco-serve".toList ++ ['r']) ++ '[' :: (p ++ "]: [".toList ++ (d ++ 'Z' :: v)) := by simpa using h
  have hY : NoPair (showRadix 10 pid ++ "]: [".toList ++ (date ++ " ERROR ] ".toList ++ msg)) := by
    have := noPair_bracket (x := showRadix 10 pid ++ "]: ".toList) (y := date ++ " ERROR ] ".toList ++ msg) (by simp [notMem_show]) (by simp) hmsg
    simpa using this
  have key : showRadix 10 pid ++ "]: [".toList ++ (date ++ " ERROR ] ".toList ++ msg) = p ++ "]: [".toList ++ (d ++ 'Z' :: v) := by
    rcases List.append_eq_append_iff.1 h with ⟨c, h1, h2⟩ | ⟨c, h1, h2⟩
    · cases c with
      | nil => simpa using h2
      | cons z c =>
        rw [List.cons_append, List.cons.injEq] at h2
        obtain ⟨rfl, h2⟩ := h2
        obtain ⟨c', rfl⟩ := ends_r h1
        exact absurd (by rw [h2]; simp) (hY.no c' (p ++ "]: [".toList ++ (d ++ 'Z' :: v)))
    · cases c with
      | nil => simpa using h2.symm
      | cons z c =>
        rw [List.cons_append, List.cons.injEq] at h2
        obtain ⟨rfl, _⟩ := h2
        have : '[' ∈ pre ++ "ruroco-server".toList := by rw [h1]; simp
        simp [hpre] at this
  have key : showRadix 10 pid ++ ']' :: (": [".toList ++ (date ++ " ERROR ] ".toList ++ msg)) = p ++ ']' :: (": [".toList ++ (d ++ 'Z' :: v)) := by simpa using key
  have := (digits_cut (isDig_show pid) hp key).2
  exact ⟨d, hd, by simpa using this⟩

/-- With the milliseconds it never is. -/
theorem head_never {host : List Char → Prop} {pre msg t v : List Char} {pid : Nat} {s : Stamp} (hs : s.Ok) (hpre : '[' ∉ pre) (hmsg : NoPair (s.show ++ " ERROR ] ".toList ++ msg))
    (ht : (Rx.cat filterHead).Matches host t) (h : journalLine pre pid (errorLine s.show msg) = t ++ v) : False := by
  obtain ⟨d, hd, he⟩ := head_forces_date hpre hmsg ht h
  unfold Stamp.show at he
  have he : s.showSeconds ++ '.' :: (padNat 3 s.milli ++ ['Z'] ++ " ERROR ] ".toList ++ msg) = d ++ 'Z' :: v := by simpa using he
  have := (List.append_inj he (by rw [length_seconds hs, hd])).2
  simp at this

/-! ## C70 -/

theorem notMem_suffix (n : Nat) : '[' ∉ " (".toList ++ showRadix 10 n ++ " more suppressed in the last 5s)".toList := by simp [notMem_show]

/-- The part of a logged text after the message. -/
theorem throttled_eq (msg : List Char) (n : Nat) : ∃ suf, throttledText msg n = msg ++ suf ∧ '[' ∉ suf ∧ (n = 0 → suf = []) := by
  unfold throttledText
  split
  · exact ⟨_, by simp, notMem_suffix n, fun h => by omega⟩
  · exact ⟨[], by simp, nofun, fun _ => rfl⟩

theorem noPair_rate (date : List Char) (hdate : '[' ∉ date) (ip : Ip) (m : Nat) (suf : List Char) (hsuf : '[' ∉ suf) : NoPair (date ++ " ERROR ] ".toList ++ (rateText ip m ++ suf)) := by
  have l1 : '[' ∉ " ERROR ] ".toList := by decide +kernel
  have l2 : '[' ∉ "Rate limit exceeded for ".toList := by decide +kernel
  have l3 : '[' ∉ ": more than ".toList := by decide +kernel
  have l4 : '[' ∉ " requests per second".toList := by decide +kernel
  refine noPair_of_notMem ?_
  unfold rateText
  simp only [List.mem_append, not_or]
  exact ⟨⟨hdate, l1⟩, ⟨⟨⟨⟨l2, notMem_showIp ip⟩, l3⟩, notMem_show m⟩, l4⟩, hsuf⟩

theorem noPair_v4 (date : List Char) (hdate : '[' ∉ date) (count : Nat) (a : BitVec 32) (port : Nat) (suf : List Char) (hsuf : '[' ∉ suf) :
    NoPair (date ++ " ERROR ] ".toList ++ (wrongSizeText count ⟨.v4 a, port⟩ ++ suf)) := by
  have l1 : '[' ∉ " ERROR ] ".toList := by decide +kernel
  have l5 : '[' ∉ "Invalid read count ".toList := by decide +kernel
  have l6 : '[' ∉ ", expected 94 from ".toList := by decide +kernel
  have hip := notMem_showIp (.v4 a)
  refine noPair_of_notMem ?_
  unfold wrongSizeText showSockAddr
  simp only [List.mem_append, List.mem_cons, not_or]
  exact ⟨⟨hdate, l1⟩, ⟨⟨⟨l5, notMem_show count⟩, l6⟩, hip, (by decide), notMem_show port⟩, hsuf⟩

theorem noPair_v6 (date : List Char) (hdate : '[' ∉ date) (count : Nat) (a : BitVec 128) (port : Nat) (suf : List Char) (hsuf : '[' ∉ suf) :
    NoPair (date ++ " ERROR ] ".toList ++ (wrongSizeText count ⟨.v6 a, port⟩ ++ suf)) := by
  have l1 : '[' ∉ " ERROR ] ".toList := by decide +kernel
  have l5 : '[' ∉ "Invalid read count ".toList := by decide +kernel
  have l6 : '[' ∉ ", expected 94 from ".toList := by decide +kernel
  have l7 : '[' ∉ "]:".toList := by decide +kernel
  have l8 : ", expected 94 from ".toList.getLast? = some ' ' := by decide +kernel
  have hip := notMem_showIp (.v6 a)
  have h1 : '[' ∉ date ++ " ERROR ] ".toList ++ "Invalid read count ".toList ++ showRadix 10 count ++ ", expected 94 from ".toList := by
    simp only [List.mem_append, not_or]
    exact ⟨⟨⟨⟨hdate, l1⟩, l5⟩, notMem_show count⟩, l6⟩
  have h2 : (date ++ " ERROR ] ".toList ++ "Invalid read count ".toList ++ showRadix 10 count ++ ", expected 94 from ".toList).getLast? ≠ some 'r' := by
    rw [List.getLast?_append, l8]
    simp
  have h3 : '[' ∉ showIp (.v6 a) ++ "]:".toList ++ showRadix 10 port ++ suf := by
    simp only [List.mem_append, not_or]
    exact ⟨⟨⟨hip, l7⟩, notMem_show port⟩, hsuf⟩
  have := noPair_bracket h1 h2 (noPair_of_notMem h3)
  unfold wrongSizeText showSockAddr
  simp only [List.append_assoc, List.cons_append] at this ⊢
  exact this

theorem noPair_complaint (date : List Char) (hdate : '[' ∉ date) (c : Complaint) (n : Nat) : NoPair (date ++ " ERROR ] ".toList ++ throttledText c.text n) := by
  obtain ⟨suf, e, hsuf, _⟩ := throttled_eq c.text n
  rw [e]
  clear e
  match c with
  | .rate ip m => exact noPair_rate date hdate ip m suf hsuf
  | .wrongSize count ⟨.v4 a, port⟩ => exact noPair_v4 date hdate count a port suf hsuf
  | .wrongSize count ⟨.v6 a, port⟩ => exact noPair_v6 date hdate count a port suf hsuf

/-- **C70 fails.** The shipped filter never matches: whatever `<HOST>` matches, no complaint the server logs counts as an offence. The filter wants the seconds followed by `Z`; the server
writes milliseconds in between. -/
theorem C70_filter_never_matches (host : List Char → Prop) (pre : List Char) (hpre : '[' ∉ pre) (pid : Nat) (s : Stamp) (hs : s.Ok) (c : Complaint) (suppressed : Nat) :
    ¬ Offence host (journalLine pre pid (errorLine s.show (throttledText c.text suppressed))) := by
  have hnp := noPair_complaint s.show (notMem_stamp s) c suppressed
  have key : ∀ rs, ¬ (Rx.cat (filterHead ++ filterLevel ++ rs)).Matches host (journalLine pre pid (errorLine s.show (throttledText c.text suppressed))) := by
    intro rs h
    rw [List.append_assoc] at h
    obtain ⟨t, v, he, ht, _⟩ := Rx.matches_cat_append.1 h
    exact head_never hs hpre hnp ht he
  rintro ⟨h | h, _⟩
  · exact key _ h
  · exact key _ h

theorem isDig_pad (w n : Nat) : ∀ c ∈ padNat w n, isDig c = true := by
  intro c hc
  unfold padNat at hc
  rcases List.mem_append.1 hc with h | h
  · rw [(List.mem_replicate.1 h).2]; decide
  · exact isDig_show n c h

theorem cat_cons {host : List Char → Prop} {r : Rx} {rs : List Rx} {u v : List Char} (h : r.Matches host u) (hs : (Rx.cat rs).Matches host v) : (Rx.cat (r :: rs)).Matches host (u ++ v) :=
  .seq _ _ _ _ h hs

theorem cat_nil {host : List Char → Prop} : (Rx.cat []).Matches host [] := Rx.Matches.eps

theorem lit_self {host : List Char → Prop} (t : List Char) : (Rx.lit t).Matches host t := Rx.matches_lit.2 rfl

theorem digits_show {host : List Char → Prop} (n : Nat) : Rx.digits.Matches host (showRadix 10 n) := Rx.matches_digits.2 ⟨show_ne_nil _ _, isDig_show _⟩

theorem digits_pad {host : List Char → Prop} {w n : Nat} (hw : 0 < w) (h : n < 10 ^ w) : (Rx.digitN w).Matches host (padNat w n) := Rx.matches_digitN.2 ⟨length_pad hw h, isDig_pad _ _⟩

theorem head_ok (host : List Char → Prop) (pre : List Char) (hpre : '\n' ∉ pre) (pid : Nat) (s : Stamp) (hs : s.Ok) :
    (Rx.cat filterHead).Matches host (pre ++ "ruroco-server[".toList ++ showRadix 10 pid ++ "]: [".toList ++ s.showSeconds ++ ['Z']) := by
  obtain ⟨h1, h2, h3, h4, h5, h6⟩ := hs
  have := cat_cons (Rx.matches_star_chr (host := host) (p := (· != '\n')) (t := pre) |>.2 (fun c hc => by have : c ≠ '\n' := fun h => hpre (h ▸ hc); simpa using this))
    (cat_cons (lit_self "ruroco-server[".toList) (cat_cons (digits_show pid) (cat_cons (lit_self "]: [".toList) (cat_cons (digits_pad (w := 4) (by decide) h1) (cat_cons (lit_self ['-'])
    (cat_cons (digits_pad (w := 2) (by decide) h2) (cat_cons (lit_self ['-']) (cat_cons (digits_pad (w := 2) (by decide) h3) (cat_cons (lit_self ['T'])
    (cat_cons (digits_pad (w := 2) (by decide) h4) (cat_cons (lit_self [':']) (cat_cons (digits_pad (w := 2) (by decide) h5) (cat_cons (lit_self [':'])
    (cat_cons (digits_pad (w := 2) (by decide) h6) (cat_cons (lit_self ['Z']) cat_nil)))))))))))))))
  unfold filterHead Stamp.showSeconds
  simp only [List.append_assoc, List.cons_append, List.nil_append] at this ⊢
  exact this

theorem level_ok (host : List Char → Prop) : (Rx.cat filterLevel).Matches host " ERROR ] ".toList :=
  cat_cons (u := [' ']) (Rx.matches_star_chr.2 (by decide)) (cat_cons (lit_self "ERROR".toList) (cat_cons (u := [' ']) (Rx.matches_star_chr.2 (by decide)) (cat_cons (lit_self "] ".toList) cat_nil)))

theorem line_ok (host : List Char → Prop) (pre : List Char) (hpre : '\n' ∉ pre) (pid : Nat) (s : Stamp) (hs : s.Ok) (rs : List Rx) (msg : List Char) (hm : (Rx.cat rs).Matches host msg) :
    (Rx.cat (filterHead ++ filterLevel ++ rs)).Matches host (journalLine pre pid (errorLine (s.showSeconds ++ ['Z']) msg)) := by
  rw [Rx.matches_cat_append]
  refine ⟨_, msg, ?_, Rx.matches_cat_append.2 ⟨_, _, rfl, head_ok host pre hpre pid s hs, level_ok host⟩, hm⟩
  have e : "]: [".toList = "]: ".toList ++ ['['] := by decide +kernel
  rw [e]
  simp only [journalLine, errorLine, List.append_assoc, List.cons_append, List.nil_append]

def rateTail : List Rx := [.lit "Rate limit exceeded for ".toList, .host, .lit ": more than ".toList, .digits, .lit " requests per second".toList]

theorem rateTail_ok (host : List Char → Prop) (ip : Ip) (m : Nat) (hhost : host (showIp ip)) : (Rx.cat rateTail).Matches host (rateText ip m) := by
  have := cat_cons (lit_self (host := host) "Rate limit exceeded for ".toList) (cat_cons (Rx.Matches.host _ hhost) (cat_cons (lit_self ": more than ".toList) (cat_cons (digits_show m)
    (cat_cons (lit_self " requests per second".toList) cat_nil))))
  unfold rateText
  simp only [List.append_assoc, List.append_nil] at this ⊢
  exact this

def sizeTail : List Rx :=
  [.lit "Invalid read count ".toList, .digits, .lit ", expected ".toList, .digits, .lit " from ".toList, .opt (.lit ['[']), .host, .opt (.lit [']']), .lit [':'], .digits]

theorem split94 : ", expected 94 from ".toList = ", expected ".toList ++ ("94".toList ++ " from ".toList) := by decide +kernel

theorem digits94 (host : List Char → Prop) : Rx.digits.Matches host "94".toList := digits_show 94

theorem sizeTail_v4 (host : List Char → Prop) (count : Nat) (a : BitVec 32) (port : Nat) (hhost : host (showIpv4 a.toNat)) : (Rx.cat sizeTail).Matches host (wrongSizeText count ⟨.v4 a, port⟩) := by
  have := cat_cons (lit_self (host := host) "Invalid read count ".toList) (cat_cons (digits_show count) (cat_cons (lit_self ", expected ".toList) (cat_cons (digits94 host)
    (cat_cons (lit_self " from ".toList) (cat_cons (Rx.Matches.skip (.lit ['['])) (cat_cons (Rx.Matches.host _ hhost) (cat_cons (Rx.Matches.skip (.lit [']'])) (cat_cons (lit_self [':'])
    (cat_cons (digits_show port) cat_nil)))))))))
  unfold wrongSizeText showSockAddr
  rw [split94]
  simp only [List.append_assoc, List.append_nil, List.nil_append, List.cons_append] at this ⊢
  exact this

theorem sizeTail_v6 (host : List Char → Prop) (count : Nat) (a : BitVec 128) (port : Nat) (hhost : host (showIpv6 a)) : (Rx.cat sizeTail).Matches host (wrongSizeText count ⟨.v6 a, port⟩) := by
  have e : "]:".toList = [']', ':'] := by decide +kernel
  have := cat_cons (lit_self (host := host) "Invalid read count ".toList) (cat_cons (digits_show count) (cat_cons (lit_self ", expected ".toList) (cat_cons (digits94 host)
    (cat_cons (lit_self " from ".toList) (cat_cons (Rx.Matches.take _ _ (lit_self ['['])) (cat_cons (Rx.Matches.host _ hhost) (cat_cons (Rx.Matches.take _ _ (lit_self [']']))
    (cat_cons (lit_self [':']) (cat_cons (digits_show port) cat_nil)))))))))
  unfold wrongSizeText showSockAddr
  rw [split94, e]
  simp only [List.append_assoc, List.append_nil, List.nil_append, List.cons_append] at this ⊢
  exact this

theorem sizeTail_ok (host : List Char → Prop) (count : Nat) : ∀ src : SockAddr, host (showIp src.ip) → (Rx.cat sizeTail).Matches host (wrongSizeText count src)
  | ⟨.v4 a, port⟩, h => sizeTail_v4 host count a port h
  | ⟨.v6 a, port⟩, h => sizeTail_v6 host count a port h

theorem throttled_zero (msg : List Char) : throttledText msg 0 = msg := rfl

theorem show_noS (radix n : Nat) (h1 : 1 < radix) (h2 : radix ≤ 16) : 'S' ∉ showRadix radix n := fun h => absurd (show_chars h1 h2 _ h) (by decide)

theorem padNat_noS (k n : Nat) : 'S' ∉ padNat k n := by
  unfold padNat
  rw [List.mem_append, not_or]
  exact ⟨fun h => absurd (List.eq_of_mem_replicate h) (by decide), show_noS 10 n (by decide) (by decide)⟩

theorem showIp_noS (ip : Ip) : 'S' ∉ showIp ip := fun h => absurd ((C47_chars ip).2 _ h) (by decide)

theorem complaint_noS (c : Complaint) : 'S' ∉ c.text := by
  match c with
  | .rate ip m =>
    show 'S' ∉ "Rate limit exceeded for ".toList ++ showIp ip ++ ": more than ".toList ++ showRadix 10 m ++ " requests per second".toList
    simp only [List.mem_append, not_or]
    exact ⟨⟨⟨⟨by decide, showIp_noS ip⟩, by decide⟩, show_noS 10 m (by decide) (by decide)⟩, by decide⟩
  | .wrongSize count src =>
    show 'S' ∉ "Invalid read count ".toList ++ showRadix 10 count ++ ", expected 94 from ".toList ++ showSockAddr src
    simp only [List.mem_append, not_or]
    refine ⟨⟨⟨by decide, show_noS 10 count (by decide) (by decide)⟩, by decide⟩, ?_⟩
    have h := showIp_noS src.ip
    unfold showSockAddr
    cases hs : src.ip with
    | v4 a =>
      rw [hs] at h
      simp only [List.mem_append, List.mem_cons, not_or]
      exact ⟨h, by decide, show_noS 10 _ (by decide) (by decide)⟩
    | v6 a =>
      rw [hs] at h
      simp only [List.mem_append, List.mem_cons, not_or]
      exact ⟨⟨⟨by decide, h⟩, by decide⟩, show_noS 10 _ (by decide) (by decide)⟩

/-- A complaint is not a line that the filter ignores. -/
theorem complaint_not_ignored (host : List Char → Prop) (pre : List Char) (hpre : ']' ∉ pre) (pid : Nat) (s : Stamp) (c : Complaint) :
    ¬ ignoreFilter.Matches host (journalLine pre pid (errorLine (s.showSeconds ++ ['Z']) c.text)) := by
  intro h
  unfold ignoreFilter at h
  simp only [Rx.matches_cat_cons, Rx.matches_lit] at h
  obtain ⟨x, y, he, -, i, z, rfl, rfl, -⟩ := h
  have hrest : 'S' ∉ "ruroco-server[".toList ++ showRadix 10 pid ++ "]: ".toList ++ errorLine (s.showSeconds ++ ['Z']) c.text := by
    unfold errorLine Stamp.showSeconds
    simp only [List.mem_append, List.mem_cons, not_or]
    exact ⟨⟨⟨by decide, show_noS 10 pid (by decide) (by decide)⟩, by decide⟩,
      ⟨⟨by decide, ⟨⟨⟨⟨⟨⟨padNat_noS _ _, by decide, padNat_noS _ _⟩, by decide, padNat_noS _ _⟩, by decide, padNat_noS _ _⟩, by decide, padNat_noS _ _⟩, by decide, padNat_noS _ _⟩, by decide⟩⟩, by decide⟩,
      complaint_noS c⟩
  have he' : pre ++ ("ruroco-server[".toList ++ showRadix 10 pid ++ "]: ".toList ++ errorLine (s.showSeconds ++ ['Z']) c.text) = (x ++ " INFO ".toList) ++ (']' :: ' ' :: 'S' :: ("uccessfully ".toList ++ z)) := by
    rw [show (x ++ " INFO ".toList) ++ (']' :: ' ' :: 'S' :: ("uccessfully ".toList ++ z)) = x ++ (" INFO ] Successfully ".toList ++ z) by simp, ← he]
    unfold journalLine
    simp only [List.append_assoc]
  rcases List.append_eq_append_iff.1 he' with ⟨t, -, h2⟩ | ⟨t, h1, h2⟩
  · exact hrest (h2 ▸ by simp)
  · cases t with
    | nil => exact hrest (by rw [← List.nil_append ("ruroco-server[".toList ++ _ ++ _ ++ _), ← h2]; simp)
    | cons v t => exact hpre (by rw [h1, ← (List.cons.inj h2).1]; simp)

/-- **C70, the part that holds.** The rest of the filter fits: if the milliseconds were not there, a complaint with nothing suppressed would count as an offence, with the sender's address as
`<HOST>`. Missing: the milliseconds (`C70_filter_never_matches`) and complaints with suppressed ones before them (`C70_suppressed_not_matched`). -/
theorem C70_rest_of_filter_partial (host : List Char → Prop) (pre : List Char) (hpre : '\n' ∉ pre ∧ ']' ∉ pre) (pid : Nat) (s : Stamp) (hs : s.Ok) (c : Complaint) (hhost : host (showIp c.sender)) :
    Offence host (journalLine pre pid (errorLine (s.showSeconds ++ ['Z']) (throttledText c.text 0))) := by
  rw [throttled_zero]
  refine ⟨?_, complaint_not_ignored host pre hpre.2 pid s c⟩
  match c with
  | .rate ip m => exact .inr (line_ok host pre hpre.1 pid s hs rateTail _ (rateTail_ok host ip m hhost))
  | .wrongSize count src => exact .inl (line_ok host pre hpre.1 pid s hs sizeTail _ (sizeTail_ok host count src hhost))

/-- What a text that the filter matches ends in. -/
theorem matched_last {host : List Char → Prop} {t : List Char} (h : wrongSizeFilter.Matches host t ∨ rateFilter.Matches host t) : ∃ c, t.getLast? = some c ∧ c ≠ ')' := by
  rcases h with h | h
  · unfold wrongSizeFilter at h
    obtain ⟨u, v, rfl, -, h⟩ := Rx.matches_cat_append.1 h
    simp only [Rx.matches_cat_cons, Rx.matches_lit, Rx.matches_digits] at h
    obtain ⟨_, _, rfl, -, _, _, rfl, -, _, _, rfl, -, _, _, rfl, -, _, _, rfl, -, _, _, rfl, -, _, _, rfl, -, _, _, rfl, -, _, _, rfl, -, d, _, rfl, ⟨hd, hd'⟩, he⟩ := h
    rw [Rx.matches_eps.1 he]
    have hc : d.getLast? = some (d.getLast hd) := List.getLast?_eq_some_getLast hd
    refine ⟨d.getLast hd, ?_, fun h => ?_⟩
    · simp only [List.append_nil, ← List.append_assoc]
      rw [List.getLast?_append, hc]; rfl
    · have := hd' _ (List.getLast_mem hd)
      rw [h] at this
      exact absurd this (by decide)
  · unfold rateFilter at h
    obtain ⟨u, v, rfl, -, h⟩ := Rx.matches_cat_append.1 h
    simp only [Rx.matches_cat_cons, Rx.matches_lit, Rx.matches_digits] at h
    obtain ⟨_, _, rfl, -, _, _, rfl, -, _, _, rfl, -, _, _, rfl, -, _, _, rfl, rfl, he⟩ := h
    rw [Rx.matches_eps.1 he]
    refine ⟨'d', ?_, by decide⟩
    simp only [List.append_nil, ← List.append_assoc]
    rw [List.getLast?_append]
    rfl

/-- **C70 fails a second way**, whatever the date looks like: a complaint that reports suppressed ones is not matched. -/
theorem C70_suppressed_not_matched (host : List Char → Prop) (pre date : List Char) (pid : Nat) (c : Complaint) (suppressed : Nat) (hn : 0 < suppressed) :
    ¬ Offence host (journalLine pre pid (errorLine date (throttledText c.text suppressed))) := by
  rintro ⟨h, _⟩
  obtain ⟨x, hx, hne⟩ := matched_last h
  unfold journalLine errorLine throttledText at hx
  rw [if_pos hn] at hx
  simp only [← List.append_assoc] at hx
  rw [List.getLast?_append] at hx
  exact hne (Option.some.inj hx).symm

/-- Non-vacuity: the line of the filter's own example, with the milliseconds the server writes. -/
example : (⟨2026, 6, 7, 12, 0, 0, 123⟩ : Stamp).Ok ∧ '[' ∉ "Jun 07 12:00:00 ns0 ".toList ∧ ']' ∉ "Jun 07 12:00:00 ns0 ".toList ∧ '\n' ∉ "Jun 07 12:00:00 ns0 ".toList ∧
    journalLine "Jun 07 12:00:00 ns0 ".toList 667459 (errorLine (Stamp.show ⟨2026, 6, 7, 12, 0, 0, 123⟩) (throttledText (Complaint.rate (.v4 0x0a000002) 2).text 0)) =
      "Jun 07 12:00:00 ns0 ruroco-server[667459]: [2026-06-07T12:00:00.123Z ERROR ] Rate limit exceeded for 10.0.0.2: more than 2 requests per second".toList ∧
    journalLine "Jun 07 12:00:00 ns0 ".toList 667459 (errorLine (Stamp.show ⟨2026, 6, 7, 12, 0, 0, 123⟩) (throttledText (Complaint.wrongSize 50 ⟨.v6 1, 50893⟩).text 3)) =
      "Jun 07 12:00:00 ns0 ruroco-server[667459]: [2026-06-07T12:00:00.123Z ERROR ] Invalid read count 50, expected 94 from [::1]:50893 (3 more suppressed in the last 5s)".toList := by
  unfold Stamp.Ok
  decide +kernel

end Ruroco
