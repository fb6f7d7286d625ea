import Verif.Spec.Ui
import Verif.Lemmas.Update

/-! # Words, lines and the text of a command; sorting -/

namespace Ruroco

open Spec

/-! ## Splitting -/

theorem splitChars_ne_nil (p : Char → Bool) (t : List Char) : splitChars p t ≠ [] := by
  cases t with
  | nil => simp [splitChars]
  | cons c cs =>
    unfold splitChars
    split
    · simp
    · split <;> simp

theorem splitChars_free {p : Char → Bool} {t : List Char} (h : ∀ c ∈ t, p c = false) : splitChars p t = [t] := by
  induction t with
  | nil => rfl
  | cons c cs ih =>
    unfold splitChars
    rw [if_neg (by rw [h c (List.mem_cons_self ..)]; decide), ih (fun x hx => h x (List.mem_cons_of_mem _ hx))]

theorem splitChars_sep {p : Char → Bool} {t : List Char} (h : ∀ c ∈ t, p c = false) {s : Char} (hs : p s = true) (rest : List Char) :
    splitChars p (t ++ s :: rest) = t :: splitChars p rest := by
  induction t with
  | nil => simp [splitChars, hs]
  | cons c cs ih =>
    rw [List.cons_append, splitChars, if_neg (by rw [h c (List.mem_cons_self ..)]; decide), ih (fun x hx => h x (List.mem_cons_of_mem _ hx))]

theorem splitChars_snoc {p : Char → Bool} (t : List Char) {s : Char} (hs : p s = true) : splitChars p (t ++ [s]) = splitChars p t ++ [[]] := by
  induction t with
  | nil => simp [splitChars, hs]
  | cons c cs ih =>
    rw [List.cons_append]
    by_cases hc : p c = true
    · simp [splitChars, hc, ih]
    · simp only [splitChars, hc, ih]
      cases hsp : splitChars p cs with
      | nil => exact absurd hsp (splitChars_ne_nil p cs)
      | cons a b => simp

theorem splitWs_snoc (t : List Char) {s : Char} (hs : isWs s = true) : splitWs (t ++ [s]) = splitWs t := by
  unfold splitWs
  rw [splitChars_snoc t hs, List.filter_append]
  simp

theorem splitWs_append_ws (t s : List Char) (hs : ∀ c ∈ s, isWs c = true) : splitWs (t ++ s) = splitWs t := by
  induction s generalizing t with
  | nil => simp
  | cons c cs ih =>
    rw [show t ++ c :: cs = (t ++ [c]) ++ cs by simp, ih _ (fun x hx => hs x (List.mem_cons_of_mem _ hx)), splitWs_snoc t (hs c (List.mem_cons_self ..))]

theorem trimEnd_split (t : List Char) : ∃ s, t = trimEnd t ++ s ∧ ∀ c ∈ s, isWs c = true := by
  refine ⟨(t.reverse.takeWhile isWs).reverse, ?_, ?_⟩
  · unfold trimEnd
    rw [← List.reverse_append, List.takeWhile_append_dropWhile, List.reverse_reverse]
  · intro c hc
    have := List.all_takeWhile (p := isWs) (l := t.reverse)
    rw [List.all_eq_true] at this
    exact this c (List.mem_reverse.1 hc)

theorem splitWs_trimEnd (t : List Char) : splitWs (trimEnd t) = splitWs t := by
  obtain ⟨s, h, hs⟩ := trimEnd_split t
  conv => rhs; rw [h]
  rw [splitWs_append_ws _ _ hs]

theorem trimEnd_sub (t : List Char) : ∀ c ∈ trimEnd t, c ∈ t := by
  obtain ⟨s, h, _⟩ := trimEnd_split t
  intro c hc
  rw [h]
  exact List.mem_append_left _ hc

theorem trimEnd_last (t : List Char) (c : Char) (h : (trimEnd t).getLast? = some c) : isWs c = false := by
  unfold trimEnd at h
  rw [List.getLast?_reverse] at h
  have h2 := List.head?_dropWhile_not isWs t.reverse
  rw [h] at h2
  simpa using h2

/-- Words, each followed by a space. -/
def spaced (ws : List (List Char)) : List Char := ws.flatMap (· ++ [' '])

theorem splitWs_spaced (ws : List (List Char)) (h : ∀ w ∈ ws, w ≠ [] ∧ NoSpace w) : splitWs (spaced ws) = ws := by
  induction ws with
  | nil => rfl
  | cons w ws ih =>
    have hw := h w (List.mem_cons_self ..)
    unfold spaced
    rw [List.flatMap_cons, List.append_assoc, List.singleton_append]
    unfold splitWs
    rw [splitChars_sep hw.2 (by decide), List.filter_cons_of_pos (by simpa using hw.1)]
    congr 1
    exact ih (fun x hx => h x (List.mem_cons_of_mem _ hx))

theorem dropWhile_free {p : Char → Bool} {t : List Char} (h : ∀ c ∈ t, p c = false) : t.dropWhile p = t := by
  cases t with
  | nil => rfl
  | cons c cs => rw [List.dropWhile_cons_of_neg (by rw [h c (List.mem_cons_self ..)]; decide)]

theorem trim_free {t : List Char} (h : NoSpace t) : trim t = t := by
  unfold trim
  rw [dropWhile_free h, dropWhile_free (fun c hc => h c (List.mem_reverse.1 hc)), List.reverse_reverse]

theorem dropWhile_eq_nil {p : Char → Bool} {t : List Char} (h : t.dropWhile p = []) : ∀ c ∈ t, p c = true := by
  have := List.takeWhile_append_dropWhile (p := p) (l := t)
  rw [h, List.append_nil] at this
  rw [← this]
  intro c hc
  have h2 := List.all_takeWhile (p := p) (l := t)
  rw [List.all_eq_true] at h2
  exact h2 c hc

theorem trim_eq_nil {t : List Char} (h : trim t = []) : ∀ c ∈ t, isWs c = true := by
  unfold trim at h
  rw [List.reverse_eq_nil_iff] at h
  have h1 := dropWhile_eq_nil h
  intro c hc
  rw [← List.takeWhile_append_dropWhile (p := isWs) (l := t)] at hc
  rcases List.mem_append.1 hc with hc | hc
  · have h2 := List.all_takeWhile (p := isWs) (l := t)
    rw [List.all_eq_true] at h2
    exact h2 c hc
  · exact h1 c (List.mem_reverse.2 hc)

/-! ## The text of a command -/

/-- The words of the text. -/
def optWords (flag value : List Char) : List (List Char) := if value = [] then [] else [flag, value]
def flagWords (flag : List Char) (b : Bool) : List (List Char) := if b then [flag] else []

def wordsOf (d : CommandData) : List (List Char) :=
  ["send".toList] ++ optWords "--address".toList d.address ++ optWords "--command".toList d.command ++ optWords "--ip".toList d.ip ++
    flagWords "--ipv4".toList d.ipv4 ++ flagWords "--ipv6".toList d.ipv6 ++ flagWords "--permissive".toList d.permissive

theorem spaced_append (a b : List (List Char)) : spaced (a ++ b) = spaced a ++ spaced b := List.flatMap_append

theorem optText_words {flag value : List Char} (h : NoSpace value) : optText flag value = spaced (optWords flag value) := by
  unfold optText optWords
  rw [trim_free h]
  split <;> simp [spaced]

theorem flagText_words (flag : List Char) (b : Bool) : flagText flag b = spaced (flagWords flag b) := by
  cases b <;> simp [flagText, flagWords, spaced]

theorem dataToCommand_words {d : CommandData} (h : PlainCmd d) : dataToCommand d = trimEnd (spaced (wordsOf d)) := by
  unfold dataToCommand wordsOf
  simp only [spaced_append, optText_words h.1, optText_words h.2.1, optText_words h.2.2, flagText_words]
  rfl

theorem noSpace_lit {t : List Char} (h : t.all (fun c => !isWs c) = true) : NoSpace t := by
  intro c hc
  rw [List.all_eq_true] at h
  simpa using h c hc

theorem wordsOf_ok {d : CommandData} (h : PlainCmd d) : ∀ w ∈ wordsOf d, w ≠ [] ∧ NoSpace w := by
  have opt : ∀ flag value : List Char, flag ≠ [] → NoSpace flag → NoSpace value → ∀ w ∈ optWords flag value, w ≠ [] ∧ NoSpace w := by
    intro flag value hf hfs hv w hw
    unfold optWords at hw
    split at hw
    · cases hw
    · rename_i hne
      simp only [List.mem_cons, List.not_mem_nil, or_false] at hw
      rcases hw with rfl | rfl
      · exact ⟨hf, hfs⟩
      · exact ⟨hne, hv⟩
  have flg : ∀ (flag : List Char) (b : Bool), flag ≠ [] → NoSpace flag → ∀ w ∈ flagWords flag b, w ≠ [] ∧ NoSpace w := by
    intro flag b hf hfs w hw
    unfold flagWords at hw
    split at hw
    · simp only [List.mem_cons, List.not_mem_nil, or_false] at hw
      subst hw
      exact ⟨hf, hfs⟩
    · cases hw
  intro w hw
  unfold wordsOf at hw
  simp only [List.mem_append] at hw
  rcases hw with (((((hw | hw) | hw) | hw) | hw) | hw) | hw
  · simp only [List.mem_cons, List.not_mem_nil, or_false] at hw
    subst hw
    exact ⟨by decide, noSpace_lit (by decide)⟩
  · exact opt _ _ (by decide) (noSpace_lit (by decide)) h.1 w hw
  · exact opt _ _ (by decide) (noSpace_lit (by decide)) h.2.1 w hw
  · exact opt _ _ (by decide) (noSpace_lit (by decide)) h.2.2 w hw
  · exact flg _ _ (by decide) (noSpace_lit (by decide)) w hw
  · exact flg _ _ (by decide) (noSpace_lit (by decide)) w hw
  · exact flg _ _ (by decide) (noSpace_lit (by decide)) w hw

theorem parseWords_address (d : CommandData) (v : List Char) (rest : List (List Char)) : parseWords d ("--address".toList :: v :: rest) = parseWords { d with address := v } rest := by
  rw [parseWords, show wordKind "--address".toList = .address from by decide]
theorem parseWords_command (d : CommandData) (v : List Char) (rest : List (List Char)) : parseWords d ("--command".toList :: v :: rest) = parseWords { d with command := v } rest := by
  rw [parseWords, show wordKind "--command".toList = .command from by decide]
theorem parseWords_ip (d : CommandData) (v : List Char) (rest : List (List Char)) : parseWords d ("--ip".toList :: v :: rest) = parseWords { d with ip := v } rest := by
  rw [parseWords, show wordKind "--ip".toList = .ip from by decide]

/-- Words without a value. -/
theorem parseWords_flag (d : CommandData) (t : List Char) (rest : List (List Char)) (h : wordKind t ≠ .address ∧ wordKind t ≠ .command ∧ wordKind t ≠ .ip) :
    parseWords d (t :: rest) = parseWords (setFlag d (wordKind t)) rest := by
  cases rest with
  | nil => rw [parseWords, parseWords]
  | cons v rest =>
    rw [parseWords]
    split
    · rename_i hk; exact absurd hk h.1
    · rename_i hk; exact absurd hk h.2.1
    · rename_i hk; exact absurd hk h.2.2
    · rfl

theorem parseWords_ipv4 (d : CommandData) (rest : List (List Char)) : parseWords d ("--ipv4".toList :: rest) = parseWords { d with ipv4 := true } rest := by
  rw [parseWords_flag _ _ _ (by decide), show wordKind "--ipv4".toList = .ipv4 from by decide]; rfl
theorem parseWords_ipv6 (d : CommandData) (rest : List (List Char)) : parseWords d ("--ipv6".toList :: rest) = parseWords { d with ipv6 := true } rest := by
  rw [parseWords_flag _ _ _ (by decide), show wordKind "--ipv6".toList = .ipv6 from by decide]; rfl
theorem parseWords_permissive (d : CommandData) (rest : List (List Char)) : parseWords d ("--permissive".toList :: rest) = parseWords { d with permissive := true } rest := by
  rw [parseWords_flag _ _ _ (by decide), show wordKind "--permissive".toList = .permissive from by decide]; rfl
theorem parseWords_send (d : CommandData) (rest : List (List Char)) : parseWords d ("send".toList :: rest) = parseWords d rest := by
  rw [parseWords_flag _ _ _ (by decide), show wordKind "send".toList = .other from by decide]; rfl

theorem parseWords_wordsOf (d : CommandData) : parseWords ⟨[], [], false, [], false, false, []⟩ (wordsOf d) = { d with name := [] } := by
  obtain ⟨address, command, permissive, ip, ipv4, ipv6, name⟩ := d
  unfold wordsOf
  simp only [List.append_assoc, List.cons_append, List.nil_append]
  rw [parseWords_send]
  have e1 : ∀ rest, parseWords ⟨[], [], false, [], false, false, []⟩ (optWords "--address".toList address ++ rest) = parseWords ⟨address, [], false, [], false, false, []⟩ rest := by
    intro rest
    unfold optWords
    split
    · rename_i h; subst h; rfl
    · exact parseWords_address _ _ _
  have e2 : ∀ rest, parseWords ⟨address, [], false, [], false, false, []⟩ (optWords "--command".toList command ++ rest) = parseWords ⟨address, command, false, [], false, false, []⟩ rest := by
    intro rest
    unfold optWords
    split
    · rename_i h; subst h; rfl
    · exact parseWords_command _ _ _
  have e3 : ∀ rest, parseWords ⟨address, command, false, [], false, false, []⟩ (optWords "--ip".toList ip ++ rest) = parseWords ⟨address, command, false, ip, false, false, []⟩ rest := by
    intro rest
    unfold optWords
    split
    · rename_i h; subst h; rfl
    · exact parseWords_ip _ _ _
  have e4 : ∀ rest, parseWords ⟨address, command, false, ip, false, false, []⟩ (flagWords "--ipv4".toList ipv4 ++ rest) = parseWords ⟨address, command, false, ip, ipv4, false, []⟩ rest := by
    intro rest
    cases ipv4
    · rfl
    · exact parseWords_ipv4 _ _
  have e5 : ∀ rest, parseWords ⟨address, command, false, ip, ipv4, false, []⟩ (flagWords "--ipv6".toList ipv6 ++ rest) = parseWords ⟨address, command, false, ip, ipv4, ipv6, []⟩ rest := by
    intro rest
    cases ipv6
    · rfl
    · exact parseWords_ipv6 _ _
  have e6 : parseWords ⟨address, command, false, ip, ipv4, ipv6, []⟩ (flagWords "--permissive".toList permissive) = ⟨address, command, permissive, ip, ipv4, ipv6, []⟩ := by
    cases permissive
    · rfl
    · exact (parseWords_permissive _ []).trans rfl
  rw [e1, e2, e3, e4, e5, e6]

theorem command_round_trip {d : CommandData} (h : PlainCmd d) : commandToData (dataToCommand d) = addCommandName d := by
  unfold commandToData
  rw [dataToCommand_words h, splitWs_trimEnd, splitWs_spaced _ (wordsOf_ok h), parseWords_wordsOf]
  rfl

theorem addCommandName_fields (d : CommandData) : SameFields (addCommandName d) d := ⟨rfl, rfl, rfl, rfl, rfl, rfl⟩

theorem addCommandName_labelled (d : CommandData) : Labelled (addCommandName d) := by
  show d.command ++ '@' :: d.address ++ _ ++ _ ++ _ = _
  simp only [List.append_assoc]
  rfl

theorem addCommandName_of_labelled {d : CommandData} (h : Labelled d) : addCommandName d = d := by
  have h2 := (addCommandName_labelled d).trans h.symm
  obtain ⟨a, c, p, i, v4, v6, n⟩ := d
  show CommandData.mk a c p i v4 v6 _ = _
  exact congrArg (CommandData.mk a c p i v4 v6) h2

/-! ## Lines -/

/-- A text that `lines` gives back. -/
structure OneLine (t : List Char) : Prop where
  noNl : ∀ c ∈ t, (c == '\n') = false
  ne : trim t ≠ []
  last : t.getLast? ≠ some '\r'

theorem trimEnd_cons (c : Char) (hc : isWs c = false) (t : List Char) : ∃ s, trimEnd (c :: t) = c :: s := by
  obtain ⟨s, h, hs⟩ := trimEnd_split (c :: t)
  cases he : trimEnd (c :: t) with
  | nil =>
    rw [he, List.nil_append] at h
    have := hs c (by rw [← h]; exact List.mem_cons_self ..)
    rw [hc] at this
    cases this
  | cons a b =>
    rw [he, List.cons_append] at h
    cases h
    exact ⟨b, rfl⟩

theorem dataToCommand_oneLine {d : CommandData} (h : PlainCmd d) : OneLine (dataToCommand d) := by
  refine ⟨?_, ?_, ?_⟩
  · rw [dataToCommand_words h]
    intro c hc
    have hc := trimEnd_sub _ c hc
    unfold spaced at hc
    obtain ⟨w, hw, hcw⟩ := List.mem_flatMap.1 hc
    have hnl : isWs '\n' = true := by decide
    rcases List.mem_append.1 hcw with hcw | hcw
    · have := (wordsOf_ok h w hw).2 c hcw
      cases hb : c == '\n'
      · rfl
      · rw [beq_iff_eq] at hb
        subst hb
        rw [hnl] at this
        cases this
    · simp only [List.mem_cons, List.not_mem_nil, or_false] at hcw
      subst hcw
      decide
  · intro ht
    unfold dataToCommand at ht
    have hx : ∀ r : List Char, ∃ s, trimEnd ("send ".toList ++ r) = 's' :: s := fun r => trimEnd_cons 's' (by decide) _
    simp only [List.append_assoc] at ht
    obtain ⟨s, hs⟩ := hx (optText "--address".toList d.address ++ (optText "--command".toList d.command ++ (optText "--ip".toList d.ip ++
      (flagText "--ipv4".toList d.ipv4 ++ (flagText "--ipv6".toList d.ipv6 ++ flagText "--permissive".toList d.permissive)))))
    rw [hs] at ht
    have := trim_eq_nil ht 's' (List.mem_cons_self ..)
    revert this
    decide
  · intro hl
    have := trimEnd_last _ _ hl
    revert this
    decide

theorem textLines_showList (l : List CommandData) (h : ∀ d ∈ l, OneLine (dataToCommand d)) : textLines (showList l) = l.map dataToCommand := by
  have hne : ∀ t : List Char, OneLine t → t ≠ [] := by
    rintro t ht rfl
    exact ht.ne rfl
  induction l with
  | nil => rfl
  | cons d l ih =>
    have hd := h d (List.mem_cons_self ..)
    cases l with
    | nil =>
      show linesOf (splitChars (· == '\n') (dataToCommand d)) = [dataToCommand d]
      rw [splitChars_free hd.noNl]
      show (if dataToCommand d = [] then [] else [dataToCommand d]) = _
      rw [if_neg (hne _ hd)]
    | cons e l =>
      show linesOf (splitChars (· == '\n') (dataToCommand d ++ '\n' :: showList (e :: l))) = _
      rw [splitChars_sep hd.noNl (by decide)]
      have ih' := ih (fun x hx => h x (List.mem_cons_of_mem _ hx))
      unfold textLines at ih'
      cases hsp : splitChars (· == '\n') (showList (e :: l)) with
      | nil => exact absurd hsp (splitChars_ne_nil _ _)
      | cons a b =>
        show stripCr (dataToCommand d) :: linesOf (a :: b) = _
        rw [← hsp, ih']
        unfold stripCr
        rw [if_neg hd.last]
        rfl

theorem parseConfig_showList (l : List CommandData) (h : ∀ d ∈ l, PlainCmd d) : parseConfig (showList l) = l.map addCommandName := by
  unfold parseConfig
  have h1 : ∀ d ∈ l, OneLine (dataToCommand d) := fun d hd => dataToCommand_oneLine (h d hd)
  rw [textLines_showList l h1]
  rw [List.filter_eq_self.2 (by
    intro t ht
    obtain ⟨d, hd, rfl⟩ := List.mem_map.1 ht
    simpa using (h1 d hd).ne), List.map_map]
  exact List.map_congr_left (fun d hd => command_round_trip (h d hd))

/-! ## Sorting -/

def CmdLe (a b : CommandData) : Prop := a.command < b.command ∨ (a.command = b.command ∧ a.address ≤ b.address)

theorem cmdLe_iff (a b : CommandData) : cmdLe a b = true ↔ CmdLe a b := by
  simp [cmdLe, CmdLe]

theorem CmdLe.trans {a b c : CommandData} (h : CmdLe a b) (h' : CmdLe b c) : CmdLe a c := by
  rcases h with h | ⟨h1, h2⟩ <;> rcases h' with h' | ⟨h1', h2'⟩
  · exact Or.inl (List.lt_trans h h')
  · exact Or.inl (by rw [← h1']; exact h)
  · exact Or.inl (by rw [h1]; exact h')
  · exact Or.inr ⟨h1.trans h1', List.le_trans h2 h2'⟩

theorem CmdLe.total (a b : CommandData) : CmdLe a b ∨ CmdLe b a := by
  by_cases h : a.command = b.command
  · rcases List.le_total a.address b.address with h2 | h2
    · exact Or.inl (Or.inr ⟨h, h2⟩)
    · exact Or.inr (Or.inr ⟨h.symm, h2⟩)
  · rcases List.le_total a.command b.command with h2 | h2
    · rcases List.le_iff_lt_or_eq.1 h2 with h3 | h3
      · exact Or.inl (Or.inl h3)
      · exact absurd h3 h
    · rcases List.le_iff_lt_or_eq.1 h2 with h3 | h3
      · exact Or.inr (Or.inl h3)
      · exact absurd h3.symm h

theorem insertCmd_perm (c : CommandData) (l : List CommandData) : (insertCmd c l).Perm (c :: l) := by
  induction l with
  | nil => exact List.Perm.refl _
  | cons e l ih =>
    unfold insertCmd
    split
    · exact List.Perm.refl _
    · exact (List.Perm.cons e ih).trans (List.Perm.swap c e l)

theorem sortCmds_perm (l : List CommandData) : (sortCmds l).Perm l := by
  induction l with
  | nil => exact List.Perm.refl _
  | cons c l ih => exact (insertCmd_perm c _).trans (List.Perm.cons c ih)

theorem insertCmd_sorted (c : CommandData) (l : List CommandData) (h : l.Pairwise CmdLe) : (insertCmd c l).Pairwise CmdLe := by
  induction l with
  | nil => exact List.pairwise_singleton _ _
  | cons e l ih =>
    rw [List.pairwise_cons] at h
    unfold insertCmd
    split
    · rename_i hle
      have hle := (cmdLe_iff c e).1 hle
      rw [List.pairwise_cons, List.pairwise_cons]
      refine ⟨fun x hx => ?_, h⟩
      rcases List.mem_cons.1 hx with rfl | hx
      · exact hle
      · exact hle.trans (h.1 x hx)
    · rename_i hle
      rw [List.pairwise_cons]
      refine ⟨fun x hx => ?_, ih h.2⟩
      rcases List.mem_cons.1 ((insertCmd_perm c l).mem_iff.1 hx) with rfl | hx
      · exact (CmdLe.total x e).resolve_left (fun hh => hle ((cmdLe_iff x e).2 hh))
      · exact h.1 x hx

theorem sortCmds_sorted (l : List CommandData) : SortedCmds (sortCmds l) := by
  show (sortCmds l).Pairwise CmdLe
  induction l with
  | nil => exact List.Pairwise.nil
  | cons c l ih => exact insertCmd_sorted c _ ih

theorem sortCmds_of_sorted {l : List CommandData} (h : SortedCmds l) : sortCmds l = l := by
  induction l with
  | nil => rfl
  | cons c l ih =>
    have h' : (c :: l).Pairwise CmdLe := h
    rw [List.pairwise_cons] at h'
    show insertCmd c (sortCmds l) = c :: l
    rw [ih h'.2]
    cases l with
    | nil => rfl
    | cons e l => exact if_pos ((cmdLe_iff c e).2 (h'.1 e (List.mem_cons_self ..)))

/-- Commands that compare equal keep their order. -/
theorem sortCmds_stable (k a : List Char) (l : List CommandData) :
    (sortCmds l).filter (fun c => decide (c.command = k ∧ c.address = a)) = l.filter (fun c => decide (c.command = k ∧ c.address = a)) := by
  have ins : ∀ (c : CommandData) (l : List CommandData),
      (insertCmd c l).filter (fun c => decide (c.command = k ∧ c.address = a)) = (c :: l).filter (fun c => decide (c.command = k ∧ c.address = a)) := by
    intro c l
    induction l with
    | nil => rfl
    | cons e l ih =>
      unfold insertCmd
      split
      · rfl
      · rename_i hle
        by_cases hc : c.command = k ∧ c.address = a
        · by_cases he : e.command = k ∧ e.address = a
          · exfalso
            apply hle
            rw [cmdLe_iff]
            exact Or.inr ⟨by rw [hc.1, he.1], by rw [hc.2, he.2]; exact List.le_refl _⟩
          · rw [List.filter_cons_of_neg (by simpa using he), ih, List.filter_cons_of_pos (by simpa using hc), List.filter_cons_of_pos (by simpa using hc),
              List.filter_cons_of_neg (by simpa using he)]
        · rw [List.filter_cons_of_neg (by simpa using hc)] at ih
          rw [List.filter_cons_of_neg (a := c) (by simpa using hc), List.filter_cons, ih, List.filter_cons]
  induction l with
  | nil => rfl
  | cons c l ih =>
    show (insertCmd c (sortCmds l)).filter _ = _
    rw [ins, List.filter_cons, List.filter_cons, ih]

end Ruroco
