import Verif.Spec.SavedLine
import Verif.Props.Cli
import Verif.Props.Button

/-!
# C107: the line of a saved command is a command line

The text the graphical client shows for a saved command is the text of a `send` command line (/repo/docs/src/ui/overview.md:5). It asks for what the button asks for, except when the command's name is empty.
-/

namespace Ruroco

open Spec

theorem splitWs_dataToCommand {c : CommandData} (h : PlainCmd c) : splitWs (dataToCommand c) = wordsOf c := by
  rw [dataToCommand_words h, splitWs_trimEnd, splitWs_spaced _ (wordsOf_ok h)]

/-- The options that the line of a saved command gives. -/
def optGiven (name value : List Char) : Given := if value = [] then [] else [(name, some value)]
def flagGiven (name : List Char) (b : Bool) : Given := if b then [(name, none)] else []

def lineGiven (c : CommandData) (k : Path) : Given :=
  optGiven "address".toList c.address ++ optGiven "command".toList c.command ++ optGiven "ip".toList c.ip ++ flagGiven "ipv4".toList c.ipv4 ++ flagGiven "ipv6".toList c.ipv6 ++
    flagGiven "permissive".toList c.permissive ++ [("key-file".toList, some k)]

theorem spelled_opt {d : OptDef} (hd : d ∈ sendOpts) (hk : d.kind = .value anyText) {v : List Char} (hv : PlainWord v) : Spelled sendOpts (optGiven d.long v) (optWords ('-' :: '-' :: d.long) v) := by
  unfold optGiven optWords
  split
  · exact .nil
  · exact spelled_one (.next ⟨hd, anyText, hk, rfl⟩ hv)

def addressOpt : OptDef := ⟨"address".toList, some 'a', .value anyText⟩
def commandOpt : OptDef := ⟨"command".toList, some 'c', .value anyText⟩
def ipOpt : OptDef := ⟨"ip".toList, some 'i', .value anyText⟩

/-- The words of a line whose values do not begin with a hyphen. -/
theorem says_line {c : CommandData} {k : Path} (hk : k ≠ []) (h1 : PlainWord c.address) (h2 : PlainWord c.command) (h3 : PlainWord c.ip) :
    Says sendOpts ((wordsOf c).tail ++ ["--key-file=".toList ++ k]) (lineGiven c k) := by
  refine ⟨?_, _, ?_, Or.inl rfl⟩
  · obtain ⟨address, command, permissive, ip, ipv4, ipv6, name⟩ := c
    unfold lineGiven optGiven flagGiven
    by_cases e1 : address = [] <;> by_cases e2 : command = [] <;> by_cases e3 : ip = [] <;> cases permissive <;> cases ipv4 <;> cases ipv6 <;>
      simp only [e1, e2, e3, if_true, if_false, Bool.false_eq_true, List.map_append, List.map_cons, List.map_nil] <;> decide
  · have hw : (wordsOf c).tail = optWords "--address".toList c.address ++ optWords "--command".toList c.command ++ optWords "--ip".toList c.ip ++
        flagWords "--ipv4".toList c.ipv4 ++ flagWords "--ipv6".toList c.ipv6 ++ flagWords "--permissive".toList c.permissive := by
      unfold wordsOf
      simp only [List.cons_append, List.nil_append, List.tail_cons]
    rw [hw]
    unfold lineGiven
    refine spelled_append (spelled_append (spelled_append (spelled_append (spelled_append (spelled_append ?_ ?_) ?_) ?_) ?_) ?_) ?_
    · exact spelled_opt (d := addressOpt) (by simp [sendOpts, addressOpt]) rfl h1
    · exact spelled_opt (d := commandOpt) (by simp [sendOpts, commandOpt]) rfl h2
    · exact spelled_opt (d := ipOpt) (by simp [sendOpts, ipOpt]) rfl h3
    · exact spelled_if _ (d := ⟨"ipv4".toList, some '4', .flag⟩) (by simp [sendOpts]) rfl rfl
    · exact spelled_if _ (d := ⟨"ipv6".toList, some '6', .flag⟩) (by simp [sendOpts]) rfl rfl
    · exact spelled_if _ (d := ⟨"permissive".toList, some 'e', .flag⟩) (by simp [sendOpts]) rfl rfl
    · refine spelled_one (.equals (d := ⟨"key-file".toList, some 'k', .value someText⟩) ⟨by simp [sendOpts], someText, rfl, ?_⟩)
      unfold someText
      cases k with
      | nil => exact absurd rfl hk
      | cons _ _ => rfl

/-- What the options of the line ask for, if there is an address: the command `default` if the line names none. -/
theorem sendArgs_line {c : CommandData} {k : Path} (ha : c.address ≠ []) : sendArgs (lineGiven c k) =
    .ok ⟨{ address := c.address, command := if c.command = [] then "default".toList else c.command, permissive := c.permissive, ip := if c.ip = [] then none else some c.ip, ipv4 := c.ipv4,
           ipv6 := c.ipv6, delayMs := 50 }, k⟩ := by
  obtain ⟨address, command, permissive, ip, ipv4, ipv6, name⟩ := c
  unfold lineGiven optGiven flagGiven
  simp only at ha
  by_cases e2 : command = [] <;> by_cases e3 : ip = [] <;> cases permissive <;> cases ipv4 <;> cases ipv6 <;> simp only [ha, e2, e3, if_true, if_false, Bool.false_eq_true] <;> rfl

theorem sendArgs_no_address {c : CommandData} {k : Path} (ha : c.address = []) : sendArgs (lineGiven c k) = .error .usage := by
  obtain ⟨address, command, permissive, ip, ipv4, ipv6, name⟩ := c
  unfold lineGiven optGiven flagGiven
  simp only at ha
  by_cases e2 : command = [] <;> by_cases e3 : ip = [] <;> cases permissive <;> cases ipv4 <;> cases ipv6 <;> simp only [ha, e2, e3, if_true, if_false, Bool.false_eq_true] <;> rfl

theorem parseClient_send (rest : List (List Char)) : parseClient ("send".toList :: rest) = match parseArgs sendOpts [] none rest with | .error e => .error e | .ok g => (sendArgs g).map .send := by
  rw [parseClient.eq_2, if_neg (by decide), if_pos rfl]
  cases parseArgs sendOpts [] none rest <;> rfl

theorem withKeyFile_line {c : CommandData} (h : PlainCmd c) (k : Path) : withKeyFile (dataToCommand c) k = "send".toList :: ((wordsOf c).tail ++ ["--key-file=".toList ++ k]) := by
  unfold withKeyFile
  rw [splitWs_dataToCommand h]
  unfold wordsOf
  simp only [List.cons_append, List.nil_append, List.tail_cons]

/-- **C107**: what the line of a saved command asks for as a command line: what the button asks for, if a command is named, and the command `default` otherwise. -/
theorem C107_line_asks (c : CommandData) (hp : PlainCmd c) (k : Path) (hk : k ≠ []) (ha : c.address ≠ []) (h1 : PlainWord c.address) (h2 : PlainWord c.command) (h3 : PlainWord c.ip) :
    parseClient (withKeyFile (dataToCommand c) k) = .ok (.send ⟨{ c.toSend with command := if c.command = [] then "default".toList else c.command }, k⟩) := by
  rw [withKeyFile_line hp, parseClient_send, (C96_understood_iff sendOpts_ok _ _).2 (says_line hk h1 h2 h3)]
  simp only
  rw [sendArgs_line ha]
  unfold CommandData.toSend
  rw [trim_free hp.2.2]
  rfl

theorem nodup_two {a b : List Char} (h : a ≠ b) (x y : List Char) : ((optGiven a x ++ optGiven b y).map (·.1)).Nodup := by
  unfold optGiven
  split <;> split <;> simp [h]

theorem nodup_one (a x : List Char) : ((optGiven a x).map (·.1)).Nodup := by
  unfold optGiven
  split <;> simp

theorem optWords_bad {v : List Char} (hv : ¬ PlainWord v) (f : List Char) : optWords f v = [f, v] := by
  unfold optWords
  rw [if_neg]
  rintro rfl
  exact hv (by decide)

theorem refused_at {core : List (List Char)} {g : Given} (hs : Spelled sendOpts g core) (hg : (g.map (·.1)).Nodup) {d : OptDef} (hd : d ∈ sendOpts) (hk : d.kind = .value anyText) {f v : List Char}
    (hf : '-' :: '-' :: d.long = f) (hv : ¬ PlainWord v) (rest : List (List Char)) : parseArgs sendOpts [] none (core ++ (optWords f v ++ rest)) = .error .usage := by
  rw [optWords_bad hv, ← hf]
  exact C96_missing_value sendOpts_ok hs hg hd hk (v :: rest) (by rintro v' r e; cases e; exact hv)

/-- A value that begins with a hyphen: the line is refused. -/
theorem line_refused {c : CommandData} (hp : PlainCmd c) (k : Path) (h : ¬ (PlainWord c.address ∧ PlainWord c.command ∧ PlainWord c.ip)) :
    parseClient (withKeyFile (dataToCommand c) k) = .error .usage := by
  have key : ∀ rest, parseArgs sendOpts [] none (optWords "--address".toList c.address ++ (optWords "--command".toList c.command ++ (optWords "--ip".toList c.ip ++ rest))) = .error .usage := by
    intro rest
    by_cases h1 : PlainWord c.address
    · have s1 : Spelled sendOpts _ (optWords "--address".toList c.address) := spelled_opt (d := addressOpt) (by simp [sendOpts, addressOpt]) rfl h1
      by_cases h2 : PlainWord c.command
      · have s2 : Spelled sendOpts _ (optWords "--command".toList c.command) := spelled_opt (d := commandOpt) (by simp [sendOpts, commandOpt]) rfl h2
        rw [← List.append_assoc]
        exact refused_at (spelled_append s1 s2) (nodup_two (by decide) _ _) (d := ipOpt) (by simp [sendOpts, ipOpt]) rfl rfl (fun h3 => h ⟨h1, h2, h3⟩) rest
      · exact refused_at s1 (nodup_one _ _) (d := commandOpt) (by simp [sendOpts, commandOpt]) rfl rfl h2 _
    · exact refused_at Spelled.nil (by decide) (d := addressOpt) (by simp [sendOpts, addressOpt]) rfl rfl h1 _
  have hw : (wordsOf c).tail ++ ["--key-file=".toList ++ k] = optWords "--address".toList c.address ++ (optWords "--command".toList c.command ++ (optWords "--ip".toList c.ip ++
      (flagWords "--ipv4".toList c.ipv4 ++ (flagWords "--ipv6".toList c.ipv6 ++ (flagWords "--permissive".toList c.permissive ++ ["--key-file=".toList ++ k]))))) := by
    unfold wordsOf
    simp only [List.cons_append, List.nil_append, List.tail_cons, List.append_assoc]
  rw [withKeyFile_line hp, parseClient_send, hw, key]

/-- **C107**, exactly when the line of a saved command, with a key file, asks for what its button asks for: it has an address and a command, and none of its values begins with a hyphen. -/
theorem C107_line_is_command_line_iff (c : CommandData) (hp : PlainCmd c) (k : Path) (hk : k ≠ []) :
    parseClient (withKeyFile (dataToCommand c) k) = .ok (.send ⟨c.toSend, k⟩) ↔
      c.address ≠ [] ∧ (c.command ≠ [] ∧ PlainWord c.address ∧ PlainWord c.command ∧ PlainWord c.ip) := by
  constructor
  · intro h
    by_cases hpl : PlainWord c.address ∧ PlainWord c.command ∧ PlainWord c.ip
    · by_cases ha : c.address = []
      · rw [withKeyFile_line hp, parseClient_send, (C96_understood_iff sendOpts_ok _ _).2 (says_line hk hpl.1 hpl.2.1 hpl.2.2)] at h
        simp only at h
        rw [sendArgs_no_address ha] at h
        cases h
      · refine ⟨ha, ?_, hpl⟩
        intro hc
        rw [C107_line_asks c hp k hk ha hpl.1 hpl.2.1 hpl.2.2, if_pos hc] at h
        injection h with h
        injection h with h
        have h2 := congrArg (fun a => a.cmd.command) h
        have h3 : c.toSend.command = [] := hc
        simp only at h2
        rw [h3] at h2
        exact absurd h2 (by decide)
    · rw [line_refused hp k hpl] at h
      cases h
  · rintro ⟨ha, hc, h1, h2, h3⟩
    rw [C107_line_asks c hp k hk ha h1 h2 h3, if_neg hc]
    rfl

/-- **C107** fails for a saved command without a name: the line asks for the command `default`, the button for the command whose name is empty. -/
theorem C107_empty_command : ∃ c : CommandData, PlainCmd c ∧ c.toSend.command = [] ∧
    ∃ cmd, parseClient (withKeyFile (dataToCommand c) "/k".toList) = .ok (.send ⟨cmd, "/k".toList⟩) ∧ cmd.command = "default".toList := by
  refine ⟨⟨"host:80".toList, [], false, [], false, false, []⟩, ⟨noSpace_lit (by decide +kernel), noSpace_lit (by decide +kernel), noSpace_lit (by decide +kernel)⟩, rfl, ?_⟩
  rw [C107_line_asks _ ⟨noSpace_lit (by decide +kernel), noSpace_lit (by decide +kernel), noSpace_lit (by decide +kernel)⟩ _ (by decide) (by decide) (by decide +kernel) (by decide +kernel)
    (by decide +kernel)]
  exact ⟨_, rfl, rfl⟩

/-! ## Command lines as lines of saved commands -/

/-- What the options say about the fields of a saved command. -/
def applyOpt (d : CommandData) (o : List Char × Option (List Char)) : CommandData :=
  match o.2 with
  | some v =>
    if o.1 = "address".toList then { d with address := v } else if o.1 = "command".toList then { d with command := v } else if o.1 = "ip".toList then { d with ip := v } else d
  | none =>
    if o.1 = "ipv4".toList then { d with ipv4 := true } else if o.1 = "ipv6".toList then { d with ipv6 := true } else if o.1 = "permissive".toList then { d with permissive := true } else d

theorem wordKind_plain {v : List Char} (h : PlainWord v) : wordKind v = .other := by
  unfold wordKind
  have hne : ∀ f : List Char, f.head? = some '-' → f ≠ ['-'] → v ≠ f := by
    rintro f h1 h2 rfl
    rcases h with h | h
    · exact h2 h
    · exact h h1
  rw [if_neg (hne _ rfl (by decide)), if_neg (hne _ rfl (by decide)), if_neg (hne _ rfl (by decide)), if_neg (hne _ rfl (by decide)), if_neg (hne _ rfl (by decide)), if_neg (hne _ rfl (by decide))]

theorem parseWords_other (d : CommandData) (t : List Char) (rest : List (List Char)) (h : wordKind t = .other) : parseWords d (t :: rest) = parseWords d rest := by
  rw [parseWords_flag d t rest (by rw [h]; decide), h]
  rfl

theorem parseWords_full {g : Given} {ws : List (List Char)} (h : WrittenInFull sendOpts g ws) : ∀ d, parseWords d ws = g.foldl applyOpt d := by
  induction h with
  | nil => exact fun _ => rfl
  | flag hd hk _ ih =>
    intro c
    rename_i d g ws _
    rw [List.foldl_cons, ← ih]
    simp only [sendOpts, helpOpt, List.mem_cons, List.not_mem_nil, or_false] at hd
    rcases hd with rfl | rfl | rfl | rfl | rfl | rfl | rfl | rfl | rfl
    · cases hk
    · cases hk
    · cases hk
    · exact parseWords_permissive c ws
    · cases hk
    · exact parseWords_ipv4 c ws
    · exact parseWords_ipv6 c ws
    · cases hk
    · cases hk
  | value hv hp _ _ _ ih =>
    intro c
    rename_i d v g ws _ _ _
    rw [List.foldl_cons, ← ih]
    obtain ⟨hd, acc, hk, _⟩ := hv
    simp only [sendOpts, helpOpt, List.mem_cons, List.not_mem_nil, or_false] at hd
    rcases hd with rfl | rfl | rfl | rfl | rfl | rfl | rfl | rfl | rfl
    · exact parseWords_address c v ws
    · rw [parseWords_other c _ _ (by decide), parseWords_other c _ _ (wordKind_plain hp)]
      rfl
    · exact parseWords_command c v ws
    · cases hk
    · exact parseWords_ip c v ws
    · cases hk
    · cases hk
    · rw [parseWords_other c _ _ (by decide), parseWords_other c _ _ (wordKind_plain hp)]
      rfl
    · cases hk

theorem applyOpt_ipv4 (d : CommandData) (n : List Char) (x : Option (List Char)) : (applyOpt d (n, x)).ipv4 = true ↔ d.ipv4 = true ∨ ("ipv4".toList, none) = (n, x) := by
  unfold applyOpt
  cases x with
  | some v =>
    have hne : ("ipv4".toList, (none : Option (List Char))) ≠ (n, some v) := fun e => by cases (Prod.mk.inj e).2
    rw [or_iff_left hne]
    dsimp only
    (repeat' split) <;> exact Iff.rfl
  | none =>
    by_cases h : n = "ipv4".toList
    · subst h
      refine ⟨fun _ => Or.inr rfl, fun _ => ?_⟩
      dsimp only
      rw [if_pos rfl]
    · have hne : ("ipv4".toList, (none : Option (List Char))) ≠ (n, none) := fun e => h (Prod.mk.inj e).1.symm
      rw [or_iff_left hne]
      dsimp only
      (repeat' split) <;> first | exact Iff.rfl | (rename_i e; exact absurd e h)

theorem applyOpt_ipv6 (d : CommandData) (n : List Char) (x : Option (List Char)) : (applyOpt d (n, x)).ipv6 = true ↔ d.ipv6 = true ∨ ("ipv6".toList, none) = (n, x) := by
  unfold applyOpt
  cases x with
  | some v =>
    have hne : ("ipv6".toList, (none : Option (List Char))) ≠ (n, some v) := fun e => by cases (Prod.mk.inj e).2
    rw [or_iff_left hne]
    dsimp only
    (repeat' split) <;> exact Iff.rfl
  | none =>
    by_cases h : n = "ipv6".toList
    · subst h
      refine ⟨fun _ => Or.inr rfl, fun _ => ?_⟩
      dsimp only
      rw [if_neg (by decide)]; rw [if_pos rfl]
    · have hne : ("ipv6".toList, (none : Option (List Char))) ≠ (n, none) := fun e => h (Prod.mk.inj e).1.symm
      rw [or_iff_left hne]
      dsimp only
      (repeat' split) <;> first | exact Iff.rfl | (rename_i e; exact absurd e h)

theorem applyOpt_permissive (d : CommandData) (n : List Char) (x : Option (List Char)) : (applyOpt d (n, x)).permissive = true ↔ d.permissive = true ∨ ("permissive".toList, none) = (n, x) := by
  unfold applyOpt
  cases x with
  | some v =>
    have hne : ("permissive".toList, (none : Option (List Char))) ≠ (n, some v) := fun e => by cases (Prod.mk.inj e).2
    rw [or_iff_left hne]
    dsimp only
    (repeat' split) <;> exact Iff.rfl
  | none =>
    by_cases h : n = "permissive".toList
    · subst h
      refine ⟨fun _ => Or.inr rfl, fun _ => ?_⟩
      dsimp only
      have h1 : ¬ "permissive".toList = "ipv4".toList := by decide
      have h2 : ¬ "permissive".toList = "ipv6".toList := by decide
      generalize "permissive".toList = z at h1 h2
      rw [if_neg h1, if_neg h2, if_pos rfl]
    · have hne : ("permissive".toList, (none : Option (List Char))) ≠ (n, none) := fun e => h (Prod.mk.inj e).1.symm
      rw [or_iff_left hne]
      dsimp only
      (repeat' split) <;> first | exact Iff.rfl | (rename_i e; exact absurd e h)

theorem applyOpt_address (d : CommandData) (v : List Char) : (applyOpt d ("address".toList, some v)).address = v := by
  unfold applyOpt
  dsimp only
  rw [if_pos rfl]

theorem applyOpt_address_other (d : CommandData) (n : List Char) (x : Option (List Char)) (h : n ≠ "address".toList) : (applyOpt d (n, x)).address = d.address := by
  unfold applyOpt
  cases x <;> dsimp only <;> (repeat' split) <;> first | rfl | (rename_i e; exact absurd e h)

theorem fold_address_other (g : Given) (d : CommandData) (h : ∀ v, ("address".toList, v) ∉ g) : (g.foldl applyOpt d).address = d.address := by
  induction g generalizing d with
  | nil => rfl
  | cons o g ih =>
    obtain ⟨n, x⟩ := o
    rw [List.foldl_cons, ih _ (fun v hv => h v (List.mem_cons_of_mem _ hv))]
    refine applyOpt_address_other d n x ?_
    intro e
    refine h x ?_
    rw [e]
    exact List.mem_cons_self ..

theorem fold_address (g : Given) (hd : Distinct g) (d : CommandData) (v : List Char) (h : ("address".toList, some v) ∈ g) : (g.foldl applyOpt d).address = v := by
  induction g generalizing d with
  | nil => exact absurd h List.not_mem_nil
  | cons o g ih =>
    rw [List.foldl_cons]
    rcases List.mem_cons.1 h with e | h
    · rw [← e] at hd
      rw [← e, fold_address_other g _ (fun v hv => (List.nodup_cons.1 hd).1 (List.mem_map.2 ⟨_, hv, rfl⟩)), applyOpt_address]
    · exact ih (List.nodup_cons.1 hd).2 _ h

theorem applyOpt_command (d : CommandData) (v : List Char) : (applyOpt d ("command".toList, some v)).command = v := by
  unfold applyOpt
  dsimp only
  rw [if_neg (by decide)]; rw [if_pos rfl]

theorem applyOpt_command_other (d : CommandData) (n : List Char) (x : Option (List Char)) (h : n ≠ "command".toList) : (applyOpt d (n, x)).command = d.command := by
  unfold applyOpt
  cases x <;> dsimp only <;> (repeat' split) <;> first | rfl | (rename_i e; exact absurd e h)

theorem fold_command_other (g : Given) (d : CommandData) (h : ∀ v, ("command".toList, v) ∉ g) : (g.foldl applyOpt d).command = d.command := by
  induction g generalizing d with
  | nil => rfl
  | cons o g ih =>
    obtain ⟨n, x⟩ := o
    rw [List.foldl_cons, ih _ (fun v hv => h v (List.mem_cons_of_mem _ hv))]
    refine applyOpt_command_other d n x ?_
    intro e
    refine h x ?_
    rw [e]
    exact List.mem_cons_self ..

theorem fold_command (g : Given) (hd : Distinct g) (d : CommandData) (v : List Char) (h : ("command".toList, some v) ∈ g) : (g.foldl applyOpt d).command = v := by
  induction g generalizing d with
  | nil => exact absurd h List.not_mem_nil
  | cons o g ih =>
    rw [List.foldl_cons]
    rcases List.mem_cons.1 h with e | h
    · rw [← e] at hd
      rw [← e, fold_command_other g _ (fun v hv => (List.nodup_cons.1 hd).1 (List.mem_map.2 ⟨_, hv, rfl⟩)), applyOpt_command]
    · exact ih (List.nodup_cons.1 hd).2 _ h

theorem applyOpt_ip (d : CommandData) (v : List Char) : (applyOpt d ("ip".toList, some v)).ip = v := by
  unfold applyOpt
  dsimp only
  rw [if_neg (by decide)]; rw [if_neg (by decide)]; rw [if_pos rfl]

theorem applyOpt_ip_other (d : CommandData) (n : List Char) (x : Option (List Char)) (h : n ≠ "ip".toList) : (applyOpt d (n, x)).ip = d.ip := by
  unfold applyOpt
  cases x <;> dsimp only <;> (repeat' split) <;> first | rfl | (rename_i e; exact absurd e h)

theorem fold_ip_other (g : Given) (d : CommandData) (h : ∀ v, ("ip".toList, v) ∉ g) : (g.foldl applyOpt d).ip = d.ip := by
  induction g generalizing d with
  | nil => rfl
  | cons o g ih =>
    obtain ⟨n, x⟩ := o
    rw [List.foldl_cons, ih _ (fun v hv => h v (List.mem_cons_of_mem _ hv))]
    refine applyOpt_ip_other d n x ?_
    intro e
    refine h x ?_
    rw [e]
    exact List.mem_cons_self ..

theorem fold_ip (g : Given) (hd : Distinct g) (d : CommandData) (v : List Char) (h : ("ip".toList, some v) ∈ g) : (g.foldl applyOpt d).ip = v := by
  induction g generalizing d with
  | nil => exact absurd h List.not_mem_nil
  | cons o g ih =>
    rw [List.foldl_cons]
    rcases List.mem_cons.1 h with e | h
    · rw [← e] at hd
      rw [← e, fold_ip_other g _ (fun v hv => (List.nodup_cons.1 hd).1 (List.mem_map.2 ⟨_, hv, rfl⟩)), applyOpt_ip]
    · exact ih (List.nodup_cons.1 hd).2 _ h

theorem fold_ipv4 (g : Given) (d : CommandData) : (g.foldl applyOpt d).ipv4 = true ↔ d.ipv4 = true ∨ ("ipv4".toList, none) ∈ g := by
  induction g generalizing d with
  | nil => exact ⟨Or.inl, fun h => h.elim id (fun h => absurd h List.not_mem_nil)⟩
  | cons o g ih =>
    obtain ⟨n, x⟩ := o
    rw [List.foldl_cons, ih, applyOpt_ipv4, List.mem_cons, or_assoc]

theorem fold_ipv6 (g : Given) (d : CommandData) : (g.foldl applyOpt d).ipv6 = true ↔ d.ipv6 = true ∨ ("ipv6".toList, none) ∈ g := by
  induction g generalizing d with
  | nil => exact ⟨Or.inl, fun h => h.elim id (fun h => absurd h List.not_mem_nil)⟩
  | cons o g ih =>
    obtain ⟨n, x⟩ := o
    rw [List.foldl_cons, ih, applyOpt_ipv6, List.mem_cons, or_assoc]

theorem fold_permissive (g : Given) (d : CommandData) : (g.foldl applyOpt d).permissive = true ↔ d.permissive = true ∨ ("permissive".toList, none) ∈ g := by
  induction g generalizing d with
  | nil => exact ⟨Or.inl, fun h => h.elim id (fun h => absurd h List.not_mem_nil)⟩
  | cons o g ih =>
    obtain ⟨n, x⟩ := o
    rw [List.foldl_cons, ih, applyOpt_permissive, List.mem_cons, or_assoc]

theorem written_spelled {g : Given} {ws : List (List Char)} (h : WrittenInFull sendOpts g ws) : Spelled sendOpts g ws := by
  induction h with
  | nil => exact .nil
  | flag hd hk _ ih => exact Spelled.cons (h := [_]) (ws := [_]) (.flag hd hk) ih
  | value hv hp _ _ _ ih => exact Spelled.cons (h := [_]) (ws := [_, _]) (.next hv hp) ih

theorem written_value {g : Given} {ws : List (List Char)} (h : WrittenInFull sendOpts g ws) : ∀ n v, (n, some v) ∈ g → v ≠ [] ∧ NoSpace v := by
  induction h with
  | nil => nofun
  | flag _ _ _ ih =>
    intro n v hm
    rcases List.mem_cons.1 hm with e | hm
    · cases e
    · exact ih n v hm
  | value _ _ hne hns _ ih =>
    intro n v hm
    rcases List.mem_cons.1 hm with e | hm
    · cases e
      exact ⟨hne, hns⟩
    · exact ih n v hm

/-- **C107**, the other way round: what the button of a saved command asks for that was entered as a command line written in full (`send --address host:80 --command open --ipv4 …`, any order, a key file or not
named in it, any white space between the words): the same as the command line, but always with the delay 50, and for the command with the empty name if none was named, where the command line asks for `default`. -/
theorem C107_pasted_asks (g : Given) (ws : List (List Char)) (h : WrittenInFull sendOpts g ws) (a : SendArgs) (hp : parseClient ("send".toList :: ws) = .ok (.send a))
    (t : List Char) (ht : splitWs t = "send".toList :: ws) :
    ((∃ v, Gives1 g "command" v) ∧ (commandToData t).toSend = { a.cmd with delayMs := 50 }) ∨
    (Lacks g "command" ∧ a.cmd.command = "default".toList ∧ (commandToData t).toSend = { a.cmd with command := [], delayMs := 50 }) := by
  have hs : ClientSays ("send".toList :: ws) (.send a) := (C96_client_understands _ _).1 hp
  obtain ⟨rest, g', e, hsays, hm⟩ := hs
  injection e with _ e
  subst e
  have hdist : (g.map (·.1)).Nodup := by
    refine Classical.byContradiction (fun hn => ?_)
    have := C96_twice_refused sendOpts_ok (written_spelled h) hn g'
    exact this ((C96_understood_iff sendOpts_ok _ _).2 hsays)
  have hg : g = g' := says_unique sendOpts_ok ⟨hdist, _, written_spelled h, Or.inl rfl⟩ hsays
  subst hg
  have hft : FromTable sendOpts g := fromTable_spelled (written_spelled h)
  unfold commandToData
  rw [ht, parseWords_send, parseWords_full h]
  have a1 := fold_address g hdist ⟨[], [], false, [], false, false, []⟩
  have c1 := fold_command g hdist ⟨[], [], false, [], false, false, []⟩
  have c2 := fold_command_other g ⟨[], [], false, [], false, false, []⟩
  have i1 := fold_ip g hdist ⟨[], [], false, [], false, false, []⟩
  have i2 := fold_ip_other g ⟨[], [], false, [], false, false, []⟩
  have f1 := fold_ipv4 g ⟨[], [], false, [], false, false, []⟩
  have f2 := fold_ipv6 g ⟨[], [], false, [], false, false, []⟩
  have f3 := fold_permissive g ⟨[], [], false, [], false, false, []⟩
  generalize g.foldl applyOpt ⟨[], [], false, [], false, false, []⟩ = d at a1 c1 c2 i1 i2 f1 f2 f3
  obtain ⟨⟨address, command, permissive, ip, ipv4, ipv6, delayMs⟩, keyFile⟩ := a
  have e1 : d.address = address := a1 _ hm.address
  have e2 : (Gives1 g "command" command ∧ d.command = command) ∨ (Lacks g "command" ∧ command = "default".toList ∧ d.command = []) := by
    rcases hm.command with hx | ⟨hx, hdef⟩
    · exact Or.inl ⟨hx, c1 _ hx⟩
    · exact Or.inr ⟨hx, hdef, c2 hx⟩
  have boolEq : ∀ {x y : Bool}, (x = true ↔ y = true) → x = y := by
    intro x y hxy
    cases x <;> cases y <;> simp_all
  have e3 : d.permissive = permissive := boolEq (by rw [f3, hm.permissive]; simp)
  have e4 : d.ipv4 = ipv4 := boolEq (by rw [f1, hm.ipv4]; simp)
  have e5 : d.ipv6 = ipv6 := boolEq (by rw [f2, hm.ipv6]; simp)
  have e6 : (if trim d.ip = [] then none else some (trim d.ip)) = ip := by
    cases hip : ip with
    | some t =>
      have ht := (hm.ip t).1 hip
      have hv := written_value h _ _ ht
      rw [i1 _ ht, trim_free hv.2, if_neg hv.1]
    | none =>
      have hl : ∀ v, ("ip".toList, v) ∉ g := by
        intro v hv
        rcases fromTable_def sendOpts_ok hft (d := ipOpt) (by simp [sendOpts, ipOpt]) hv with ⟨hk, _⟩ | ⟨x, _, rfl⟩
        · cases hk
        · have := (hm.ip x).2 hv
          rw [hip] at this
          cases this
      rw [i2 hl]
      rfl
  unfold CommandData.toSend addCommandName
  simp only [e1, e3, e4, e5, e6]
  rcases e2 with ⟨h1, h2⟩ | ⟨h1, h2, h3⟩
  · exact Or.inl ⟨⟨_, h1⟩, by rw [h2]⟩
  · exact Or.inr ⟨h1, h2, by rw [h3]⟩

/-- **C107**, the other way round, exactly when the button asks for the same as the command line: a command is named, and the delay is the usual one. -/
theorem C107_command_line_is_line_iff (g : Given) (ws : List (List Char)) (h : WrittenInFull sendOpts g ws) (a : SendArgs) (hp : parseClient ("send".toList :: ws) = .ok (.send a))
    (t : List Char) (ht : splitWs t = "send".toList :: ws) : (commandToData t).toSend = a.cmd ↔ (∃ v, Gives1 g "command" v) ∧ a.cmd.delayMs = 50 := by
  have e : ∀ c : SendCmd, ({ c with delayMs := 50 } : SendCmd) = c ↔ c.delayMs = 50 := fun c => ⟨fun h => by rw [← h], fun h => by rw [← h]⟩
  rcases C107_pasted_asks g ws h a hp t ht with ⟨h1, h2⟩ | ⟨h1, h2, h3⟩
  · rw [h2, e]
    exact ⟨fun h => ⟨h1, h⟩, fun h => h.2⟩
  · rw [h3]
    constructor
    · intro he
      have := congrArg SendCmd.command he
      rw [h2] at this
      exact absurd (show ([] : List Char) = _ from this) (by decide)
    · rintro ⟨⟨v, hv⟩, _⟩
      exact absurd hv (h1 _)

/-- **C107**, in particular: a command line that names a command and no delay. Missing: a line that names no command, or a delay, see `C107_command_line_is_line_iff`. -/
theorem C107_command_line_is_line_partial (g : Given) (ws : List (List Char)) (h : WrittenInFull sendOpts g ws) (a : SendArgs) (hp : parseClient ("send".toList :: ws) = .ok (.send a))
    (t : List Char) (ht : splitWs t = "send".toList :: ws)
    (hc : ∃ v, Gives1 g "command" v) (hd : Lacks g "send-delay-ms") : (commandToData t).toSend = a.cmd := by
  refine (C107_command_line_is_line_iff g ws h a hp t ht).2 ⟨hc, ?_⟩
  have hs : ClientSays ("send".toList :: ws) (.send a) := (C96_client_understands _ _).1 hp
  obtain ⟨rest, g', e, hsays, hm⟩ := hs
  injection e with _ e
  subst e
  have hdist : (g.map (·.1)).Nodup := by
    refine Classical.byContradiction (fun hn => ?_)
    have := C96_twice_refused sendOpts_ok (written_spelled h) hn g'
    exact this ((C96_understood_iff sendOpts_ok _ _).2 hsays)
  have hg : g = g' := says_unique sendOpts_ok ⟨hdist, _, written_spelled h, Or.inl rfl⟩ hsays
  subst hg
  rcases hm.delay with ⟨v, hv, _⟩ | ⟨_, hx⟩
  · exact absurd hv (hd _)
  · exact hx

/-- **C107** fails for a line that names no command: the command-line client asks for `default`, the button for the command whose name is empty; and for a line that names a delay, which is dropped. -/
theorem C107_pasted_line_differs :
    (∃ a, parseClient (splitWs "send --address h:80 --key-file k".toList) = .ok (.send a) ∧ a.cmd.command = "default".toList ∧
      (commandToData "send --address h:80 --key-file k".toList).toSend.command = []) ∧
    (∃ a, parseClient (splitWs "send --address h:80 --key-file k --command o --send-delay-ms 900".toList) = .ok (.send a) ∧ a.cmd.delayMs = 900 ∧
      (commandToData "send --address h:80 --key-file k --command o --send-delay-ms 900".toList).toSend.delayMs = 50) := by
  have h : ∀ t : List Char, ∀ P : SendArgs → Bool, (match parseClient (splitWs t) with | .ok (.send a) => P a | _ => false) = true → ∃ a, parseClient (splitWs t) = .ok (.send a) ∧ P a = true := by
    intro t P hP
    split at hP
    · rename_i a ha
      exact ⟨a, ha, hP⟩
    · cases hP
  constructor
  · obtain ⟨a, ha, hp⟩ := h "send --address h:80 --key-file k".toList (fun a => decide (a.cmd.command = "default".toList)) (by decide +kernel)
    exact ⟨a, ha, of_decide_eq_true hp, by decide +kernel⟩
  · obtain ⟨a, ha, hp⟩ := h "send --address h:80 --key-file k --command o --send-delay-ms 900".toList (fun a => decide (a.cmd.delayMs = 900)) (by decide +kernel)
    exact ⟨a, ha, of_decide_eq_true hp, by decide +kernel⟩

/-! ## Cases that meet the hypotheses -/

/-- The line `send --address host:80 --command open --ip 10.0.0.1 --ipv6 --permissive` with a key file. -/
example : parseClient (withKeyFile (dataToCommand exUiCmd) "/k".toList) = .ok (.send ⟨exUiCmd.toSend, "/k".toList⟩) :=
  (C107_line_is_command_line_iff exUiCmd ⟨noSpace_lit (by decide +kernel), noSpace_lit (by decide +kernel), noSpace_lit (by decide +kernel)⟩ _ (by decide)).2
    ⟨by decide +kernel, by decide +kernel, by decide +kernel, by decide +kernel, by decide +kernel⟩

/-- A line written in full: `--ipv4 --command open --address h:80`. -/
example : WrittenInFull sendOpts [("ipv4".toList, none), ("command".toList, some "open".toList), ("address".toList, some "h:80".toList)]
    ["--ipv4".toList, "--command".toList, "open".toList, "--address".toList, "h:80".toList] :=
  .flag (d := ⟨"ipv4".toList, some '4', .flag⟩) (by simp [sendOpts]) rfl
    (.value (d := commandOpt) ⟨by simp [sendOpts, commandOpt], anyText, rfl, rfl⟩ (by decide +kernel) (by decide +kernel) (noSpace_lit (by decide +kernel))
      (.value (d := addressOpt) ⟨by simp [sendOpts, addressOpt], anyText, rfl, rfl⟩ (by decide +kernel) (by decide +kernel) (noSpace_lit (by decide +kernel)) .nil))

end Ruroco
