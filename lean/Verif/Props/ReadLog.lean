import Verif.Model.CommanderText
import Verif.Spec.ReadLog
import Verif.Props.CommanderLog
import Verif.Props.ServerLog
import Verif.Props.IpText

/-!
# C120: the executions can be read off the commander's log
-/

namespace Ruroco

open Spec

/-! ## Lines -/

theorem logLines_ne_nil (x : List Char) : logLines x ≠ [] := by
  cases x with
  | nil => simp [logLines]
  | cons c cs =>
    unfold logLines
    split
    · simp
    · split <;> simp

theorem logLines_newline (a b : List Char) : logLines (a ++ '\n' :: b) = logLines a ++ logLines b := by
  induction a with
  | nil => simp [logLines]
  | cons c cs ih =>
    show logLines (c :: (cs ++ '\n' :: b)) = logLines (c :: cs) ++ _
    rw [logLines, logLines, ih]
    split
    · rfl
    · cases h : logLines cs with
      | nil => exact absurd h (logLines_ne_nil cs)
      | cons l ls => rfl

theorem logLines_prefix (p x : List Char) (h : '\n' ∉ p) : logLines (p ++ x) = (p ++ (logLines x).headD []) :: (logLines x).drop 1 := by
  induction p with
  | nil =>
    cases hx : logLines x with
    | nil => exact absurd hx (logLines_ne_nil x)
    | cons l ls => simp [hx]
  | cons c cs ih =>
    simp only [List.mem_cons, not_or] at h
    show logLines (c :: (cs ++ x)) = _
    rw [logLines, if_neg (fun hc => h.1 hc.symm), ih h.2]
    rfl

theorem logLines_single (p : List Char) (h : '\n' ∉ p) : logLines p = [p] := by
  have := logLines_prefix p [] h
  simpa [logLines] using this

/-! ## Parts of a line -/

theorem after_append (p x : List Char) : after p (p ++ x) = some x := by
  unfold after
  rw [if_pos (by rw [List.isPrefixOf_iff_prefix]; exact List.prefix_append p x), List.drop_left]

theorem after_none {p x : List Char} (h : ¬ p <+: x) : after p x = none := by
  unfold after
  rw [if_neg (by rw [List.isPrefixOf_iff_prefix]; exact h)]

theorem takeWhile_stop {p : Char → Bool} {a : List Char} {c : Char} {b : List Char} (ha : ∀ x ∈ a, p x = true) (hc : p c = false) : (a ++ c :: b).takeWhile p = a := by
  induction a with
  | nil => simp [hc]
  | cons x xs ih => simp [ha x (List.mem_cons_self ..), ih (fun y hy => ha y (List.mem_cons_of_mem _ hy))]

theorem dropWhile_stop {p : Char → Bool} {a : List Char} {c : Char} {b : List Char} (ha : ∀ x ∈ a, p x = true) (hc : p c = false) : (a ++ c :: b).dropWhile p = c :: b := by
  induction a with
  | nil => simp [hc]
  | cons x xs ih => simp [ha x (List.mem_cons_self ..), ih (fun y hy => ha y (List.mem_cons_of_mem _ hy))]

theorem showIp_noSpace (ip : Ip) : ' ' ∉ showIp ip := fun h => C47_no_shell_syntax ip ' ' h (by decide)

theorem showIp_noNewline (ip : Ip) : '\n' ∉ showIp ip := fun h => C47_no_shell_syntax ip '\n' h (by decide)

theorem splitFor_append (cmd : List Char) (ip : Ip) : splitFor (cmd ++ " for ".toList ++ showIp ip) = (cmd, showIp ip) := by
  have h : lastWord (cmd ++ " for ".toList ++ showIp ip) = showIp ip := by
    unfold lastWord
    rw [show cmd ++ " for ".toList ++ showIp ip = (cmd ++ " for".toList) ++ ' ' :: showIp ip by simp, List.reverse_append, List.reverse_cons, List.append_assoc, List.singleton_append]
    rw [takeWhile_stop (fun x hx => ?_) (by decide), List.reverse_reverse]
    have := showIp_noSpace ip
    simp only [decide_eq_true_eq]
    intro he
    exact this (he ▸ List.mem_reverse.1 hx)
  unfold splitFor
  rw [h]
  congr 1
  have : (cmd ++ " for ".toList ++ showIp ip).length - (showIp ip).length - " for ".toList.length = cmd.length := by simp only [List.length_append]; omega
  rw [this, List.append_assoc, List.take_left]

theorem cutFor_append {cmd : List Char} (h : ¬ " for ".toList <:+: cmd ++ [' ']) (r : List Char) : cutFor (cmd ++ " for ".toList ++ r) = some (cmd, r) := by
  induction cmd with
  | nil =>
    show cutFor (' ' :: ("for ".toList ++ r)) = _
    unfold cutFor
    rw [show (' ' :: ("for ".toList ++ r)) = " for ".toList ++ r from rfl, after_append]
  | cons c cs ih =>
    show cutFor (c :: (cs ++ " for ".toList ++ r)) = _
    unfold cutFor
    have hn : after " for ".toList (c :: (cs ++ " for ".toList ++ r)) = none := by
      refine after_none (fun hp => ?_)
      obtain ⟨t, ht⟩ := hp
      replace ht : ' ' :: 'f' :: 'o' :: 'r' :: ' ' :: t = c :: (cs ++ ' ' :: 'f' :: 'o' :: 'r' :: ' ' :: r) := by
        rw [List.append_assoc] at ht
        exact ht
      obtain ⟨rfl, h1⟩ := List.cons.inj ht
      match cs, h1 with
      | [], h1 => exact absurd (List.cons.inj h1).1 (by decide)
      | [x], h1 => exact absurd (List.cons.inj (List.cons.inj h1).2).1 (by decide)
      | [x, y], h1 => exact absurd (List.cons.inj (List.cons.inj (List.cons.inj h1).2).2).1 (by decide)
      | x :: y :: z :: l, h1 =>
        obtain ⟨hx, h2⟩ := List.cons.inj h1
        obtain ⟨hy, h3⟩ := List.cons.inj h2
        obtain ⟨hz, h4⟩ := List.cons.inj h3
        subst hx hy hz
        refine h ?_
        cases l with
        | nil => exact ⟨[], [], rfl⟩
        | cons v l =>
          obtain ⟨rfl, _⟩ := List.cons.inj h4
          exact ⟨[], l ++ [' '], rfl⟩
    rw [hn, ih (fun hi => h (hi.trans (List.infix_cons List.infix_rfl)))]
    rfl

/-! ## Lines of entries -/

theorem executionIn_message {date msg : List Char} (hd : ']' ∉ date) (level : List Char) (hl : ']' ∉ level) :
    executionIn ('[' :: (date ++ level ++ ']' :: ' ' :: msg)) = executionSaid msg := by
  have : (date ++ level ++ ']' :: ' ' :: msg).dropWhile (· ≠ ']') = ']' :: ' ' :: msg := by
    refine dropWhile_stop (fun x hx => ?_) (by decide)
    simp only [decide_eq_true_eq]
    rintro rfl
    rcases List.mem_append.1 hx with h | h
    · exact hd h
    · exact hl h
  show executionSaid (List.drop 2 (List.dropWhile _ _)) = _
  rw [this]
  rfl

/-- The line of an entry, up to its message. -/
theorem line_eq (errText : Err → List Char) (socket date : List Char) (e : CmdrEntry) :
    ∃ level, ']' ∉ level ∧ '\n' ∉ level ∧ e.line errText socket date = '[' :: (date ++ level ++ ']' :: ' ' :: e.text errText socket) := by
  unfold CmdrEntry.line
  cases e.isInfo with
  | true => exact ⟨" INFO ".toList, by decide, by decide, by simp⟩
  | false => exact ⟨" ERROR ".toList, by decide, by decide, by simp⟩

theorem said_finished (cmd : List Char) (ip : Ip) (s : Bool) :
    executionSaid ((if s then "Execution was successful: ".toList else "Execution was not successful: ".toList) ++ (cmd ++ " for ".toList ++ showIp ip)) =
      some (cmd, showIp ip, if s then .successful else .unsuccessful) := by
  unfold executionSaid
  cases s with
  | true => simp only [if_true, after_append, splitFor_append]
  | false =>
    have h : ∀ x, after "Execution was successful: ".toList ("Execution was not successful: ".toList ++ x) = none := fun _ => rfl
    simp only [Bool.false_eq_true, if_false, h, after_append, splitFor_append]

theorem said_timedOut (t : Nat) (cmd : List Char) (ip : Ip) :
    executionSaid ("Execution timed out after ".toList ++ (showRadix 10 t ++ "s and was killed: ".toList ++ (cmd ++ " for ".toList ++ showIp ip))) = some (cmd, showIp ip, .timedOut) := by
  have h1 : ∀ x, after "Execution was successful: ".toList ("Execution timed out after ".toList ++ x) = none := fun _ => rfl
  have h2 : ∀ x, after "Execution was not successful: ".toList ("Execution timed out after ".toList ++ x) = none := fun _ => rfl
  have : (showRadix 10 t ++ "s and was killed: ".toList ++ (cmd ++ " for ".toList ++ showIp ip)).dropWhile (· ≠ ':') = ':' :: ' ' :: (cmd ++ " for ".toList ++ showIp ip) := by
    rw [show showRadix 10 t ++ "s and was killed: ".toList ++ (cmd ++ " for ".toList ++ showIp ip) =
      (showRadix 10 t ++ "s and was killed".toList) ++ ':' :: ' ' :: (cmd ++ " for ".toList ++ showIp ip) by simp]
    refine dropWhile_stop (fun x hx => ?_) (by decide)
    simp only [decide_eq_true_eq]
    rintro rfl
    rcases List.mem_append.1 hx with h | h
    · exact show10_notMem t (by decide) h
    · exact absurd h (by decide)
  unfold executionSaid
  simp only [h1, h2, after_append]
  rw [this]
  simp only [List.drop_succ_cons, List.drop_zero, splitFor_append]

theorem said_execFailed {cmd : List Char} (h : ¬ " for ".toList <:+: cmd ++ [' ']) (ip : Ip) (e : List Char) :
    executionSaid ("Error executing ".toList ++ (cmd ++ " for ".toList ++ (showIp ip ++ ": ".toList ++ e))) = some (cmd, showIp ip, .failed) := by
  have h1 : ∀ x, after "Execution was successful: ".toList ("Error executing ".toList ++ x) = none := fun _ => rfl
  have h2 : ∀ x, after "Execution was not successful: ".toList ("Error executing ".toList ++ x) = none := fun _ => rfl
  have h3 : ∀ x, after "Execution timed out after ".toList ("Error executing ".toList ++ x) = none := fun _ => rfl
  have h4 : (showIp ip ++ ": ".toList ++ e).takeWhile (· ≠ ' ') = showIp ip ++ [':'] := by
    rw [show showIp ip ++ ": ".toList ++ e = (showIp ip ++ [':']) ++ ' ' :: e by simp]
    refine takeWhile_stop (fun x hx => ?_) (by decide)
    simp only [decide_eq_true_eq]
    rintro rfl
    rcases List.mem_append.1 hx with h | h
    · exact showIp_noSpace ip h
    · exact absurd h (by decide)
  unfold executionSaid
  simp only [h1, h2, h3, after_append, cutFor_append h, Option.map_some]
  rw [h4]
  simp

theorem said_other {msg : List Char} (h1 : ¬ "Execution ".toList <+: msg) (h2 : ¬ "Error executing ".toList <+: msg) : executionSaid msg = none := by
  have h : ∀ p, "Execution ".toList <+: p → after p msg = none := fun p hp => after_none (fun hm => h1 (hp.trans hm))
  have ha : after "Execution was successful: ".toList msg = none := h _ ⟨"was successful: ".toList, rfl⟩
  have hb : after "Execution was not successful: ".toList msg = none := h _ ⟨"was not successful: ".toList, rfl⟩
  have hc : after "Execution timed out after ".toList msg = none := h _ ⟨"timed out after ".toList, rfl⟩
  unfold executionSaid
  simp only [ha, hb, hc, after_none h2]

theorem executionIn_noBracket {l : List Char} (h : l.head? ≠ some '[') : executionIn l = none := by
  unfold executionIn
  split
  · exact absurd rfl h
  · rfl

/-- The lines of an output tell of nothing, if no line begins like an entry. -/
theorem output_lines {p out : List Char} (hp : '\n' ∉ p) (hb : p.head? ≠ some '[') (hne : p ≠ []) (h : Innocent out) : (logLines (p ++ out)).filterMap executionIn = [] := by
  rw [logLines_prefix p out hp, List.filterMap_eq_nil_iff]
  intro l hl
  rcases List.mem_cons.1 hl with rfl | hl
  · refine executionIn_noBracket ?_
    cases p with
    | nil => exact absurd rfl hne
    | cons c cs => exact hb
  · exact executionIn_noBracket (h l hl)

/-- What is read off the lines of one entry. -/
theorem executionsIn_line {errText : Err → List Char} {socket date : List Char} (ht : PlainTexts errText socket) (hd : ']' ∉ date ∧ '\n' ∉ date) (e : CmdrEntry) (he : Plain e) :
    (logLines (e.line errText socket date)).filterMap executionIn = (execution e).toList := by
  obtain ⟨level, hl, hn, hline⟩ := line_eq errText socket date e
  rw [hline]
  have single : ∀ {msg : List Char} {r}, '\n' ∉ msg → executionSaid msg = r → (logLines ('[' :: (date ++ level ++ ']' :: ' ' :: msg))).filterMap executionIn = r.toList := by
    rintro msg r hm rfl
    rw [logLines_single]
    · have h := executionIn_message (msg := msg) hd.1 level hl
      cases hr : executionSaid msg with
      | none => rw [List.filterMap_cons_none (h.trans hr)]; rfl
      | some v => rw [List.filterMap_cons_some (h.trans hr)]; rfl
    · simp only [List.mem_cons, List.mem_append, not_or]
      exact ⟨by decide, ⟨hd.2, hn⟩, by decide, by decide, hm⟩
  have ended : ∀ {msg out err : List Char} {r}, '\n' ∉ msg → executionSaid msg = r → Innocent out → Innocent err →
      (logLines ('[' :: (date ++ level ++ ']' :: ' ' :: (msg ++ "\nstdout: ".toList ++ out ++ "\nstderr: ".toList ++ err)))).filterMap executionIn = r.toList := by
    intro msg out err r hm hr ho he
    rw [show '[' :: (date ++ level ++ ']' :: ' ' :: (msg ++ "\nstdout: ".toList ++ out ++ "\nstderr: ".toList ++ err)) =
      '[' :: (date ++ level ++ ']' :: ' ' :: msg) ++ '\n' :: (("stdout: ".toList ++ out) ++ '\n' :: ("stderr: ".toList ++ err)) by simp]
    rw [logLines_newline, logLines_newline, List.filterMap_append, List.filterMap_append, single hm hr, output_lines (by decide) (by decide) (by decide) ho,
      output_lines (by decide) (by decide) (by decide) he]
    simp
  have forNl : ∀ {cmd : List Char} {ip : Ip}, '\n' ∉ cmd → '\n' ∉ cmd ++ " for ".toList ++ showIp ip := by
    intro cmd ip h
    simp only [List.mem_append, not_or]
    exact ⟨⟨h, by decide⟩, showIp_noNewline ip⟩
  cases e with
  | acceptFailed =>
    refine single (r := none) ?_ (said_other (fun h => ?_) (fun h => ?_))
    · show '\n' ∉ "Connection for ".toList ++ socket ++ " failed: ".toList ++ errText .io
      simp only [List.mem_append, not_or]
      exact ⟨⟨⟨by decide, ht.socket⟩, by decide⟩, ht.oneLine _⟩
    · obtain ⟨t, h⟩ := h; exact absurd (List.cons.inj h).1 (by decide)
    · obtain ⟨t, h⟩ := h; exact absurd (List.cons.inj h).1 (by decide)
  | failed e => exact single (r := none) (ht.oneLine e) (said_other (ht.noExecution e).1 (ht.noExecution e).2)
  | running hash cmd =>
    refine single (r := none) ?_ (said_other (fun h => ?_) (fun h => ?_))
    · show '\n' ∉ "Running command (".toList ++ showRadix 10 hash.toNat ++ ") ".toList ++ cmd
      simp only [List.mem_append, not_or]
      exact ⟨⟨⟨by decide, show10_notMem _ (by decide)⟩, by decide⟩, he⟩
    · obtain ⟨t, h⟩ := h; exact absurd (List.cons.inj h).1 (by decide)
    · obtain ⟨t, h⟩ := h; exact absurd (List.cons.inj h).1 (by decide)
  | refused ip =>
    refine single (r := none) ?_ (said_other (fun h => ?_) (fun h => ?_))
    · show '\n' ∉ "refusing to execute with non-routable IP: ".toList ++ showIp ip
      simp only [List.mem_append, not_or]
      exact ⟨by decide, showIp_noNewline ip⟩
    · obtain ⟨t, h⟩ := h; exact absurd (List.cons.inj h).1 (by decide)
    · obtain ⟨t, h⟩ := h; exact absurd (List.cons.inj h).1 (by decide)
  | finished cmd ip s out err =>
    have h := ended (msg := (if s then "Execution was successful: ".toList else "Execution was not successful: ".toList) ++ (cmd ++ " for ".toList ++ showIp ip))
      (by
        rw [List.mem_append, not_or]
        exact ⟨by cases s <;> decide, forNl he.1⟩) (said_finished cmd ip s) he.2.1 he.2.2
    refine Eq.trans ?_ h
    congr 2
    show _ :: (_ ++ _ :: _ :: (_ ++ outcomeText cmd ip out err)) = _
    unfold outcomeText
    simp only [List.append_assoc]
  | timedOut t cmd ip out err =>
    have h := ended (msg := "Execution timed out after ".toList ++ (showRadix 10 t ++ "s and was killed: ".toList ++ (cmd ++ " for ".toList ++ showIp ip)))
      (by
        simp only [List.mem_append, not_or]
        have := forNl (ip := ip) he.1
        simp only [List.mem_append, not_or] at this
        exact ⟨by decide, ⟨show10_notMem _ (by decide), by decide⟩, this⟩) (said_timedOut t cmd ip) he.2.1 he.2.2
    refine Eq.trans ?_ h
    congr 2
    show _ :: (_ ++ _ :: _ :: (_ ++ outcomeText cmd ip out err)) = _
    unfold outcomeText
    simp only [List.append_assoc]
  | execFailed cmd ip e =>
    have h := single (msg := "Error executing ".toList ++ (cmd ++ " for ".toList ++ (showIp ip ++ ": ".toList ++ errText e)))
      (by
        simp only [List.mem_append, not_or]
        exact ⟨by decide, ⟨he.1, by decide⟩, ⟨showIp_noNewline ip, by decide⟩, ht.oneLine e⟩) (said_execFailed he.2 ip (errText e))
    refine Eq.trans ?_ h
    congr 2
    show _ :: (_ ++ _ :: _ :: (_ ++ _)) = _
    simp only [List.append_assoc]

/-! ## C120 -/

/-- **C120 (partial).** If the configured commands are single lines and no line of their output begins with `[`, then searching the journal for executions finds exactly the entries about executions,
in order, each with its command, its address and how it ended. Missing: output with such lines, for which it is false, see `C120_output_forges_entries`. -/
theorem C120_read_off_partial (errText : Err → List Char) (socket : List Char) (ht : PlainTexts errText socket) (es : List (List Char × CmdrEntry))
    (hd : ∀ x ∈ es, ']' ∉ x.1 ∧ '\n' ∉ x.1) (he : ∀ x ∈ es, Plain x.2) :
    executionsIn (journalText errText socket es) = es.filterMap (fun x => execution x.2) := by
  induction es with
  | nil => rfl
  | cons x es ih =>
    obtain ⟨d, e⟩ := x
    show (logLines (e.line errText socket d ++ '\n' :: journalText errText socket es)).filterMap executionIn = _
    rw [logLines_newline, List.filterMap_append, executionsIn_line ht (hd _ (List.mem_cons_self ..)) e (he _ (List.mem_cons_self ..)),
      show (logLines (journalText errText socket es)).filterMap executionIn = _ from
        ih (fun y hy => hd y (List.mem_cons_of_mem _ hy)) (fun y hy => he y (List.mem_cons_of_mem _ hy))]
    cases h : execution e <;> simp [h]

theorem execution_recorded (e : CmdrEntry) : (execution e).map (fun x => (x.1, x.2.1)) = (recorded e).map (fun x => (x.1, showIp x.2)) := by cases e <;> rfl

/-- **C120 (partial)**, for a whole life of the commander that is not cut short: in the journal one finds exactly the executions the connections were entitled to, in order, one for each, whatever
fails; and every command that was started is among them. -/
theorem C120_executions_partial (T : TextCodec) (c : Commander) (pre : Path) (conns : List Conn) (w w' : World) (h : c.serve pre conns w = (.ok (), w'))
    (errText : Err → List Char) (socket : List Char) (ht : PlainTexts errText socket) (dates : List (List Char)) (hl : dates.length = (c.serveLog T pre conns w).length)
    (hd : ∀ d ∈ dates, ']' ∉ d ∧ '\n' ∉ d) (he : ∀ e ∈ c.serveLog T pre conns w, Plain e) :
    (executionsIn (journalText errText socket (dates.zip (c.serveLog T pre conns w)))).map (fun x => (x.1, x.2.1)) = (conns.filterMap (commandFor c)).map (fun x => (x.1, showIp x.2)) ∧
    ∃ l, w'.log = w.log ++ l ∧
      ((spawns l).map (fun x => (x.1, showIp x.2))).Sublist ((executionsIn (journalText errText socket (dates.zip (c.serveLog T pre conns w)))).map (fun x => (x.1, x.2.1))) := by
  have h1 := C120_read_off_partial errText socket ht (dates.zip (c.serveLog T pre conns w)) (fun x hx => hd _ (List.of_mem_zip hx).1) (fun x hx => he _ (List.of_mem_zip hx).2)
  have h2 : (executionsIn (journalText errText socket (dates.zip (c.serveLog T pre conns w)))).map (fun x => (x.1, x.2.1)) =
      ((c.serveLog T pre conns w).filterMap recorded).map (fun x => (x.1, showIp x.2)) := by
    rw [h1, List.map_filterMap, List.map_filterMap]
    simp only [execution_recorded]
    rw [← List.map_snd_zip (Nat.le_of_eq hl.symm), List.filterMap_map]
    rw [List.map_snd_zip (Nat.le_of_eq hl.symm)]
    rfl
  obtain ⟨h3, l, hlog, hsub⟩ := C86_every_execution_recorded_partial T c pre conns w w' h
  rw [h2]
  exact ⟨by rw [h3], l, hlog, hsub.map _⟩

/-- **C120 is false** without the condition on the output: whatever entries one likes, a command can print them, and the journal is, character for character, that of a commander that
wrote them. -/
theorem C120_output_forges_entries (errText : Err → List Char) (socket date cmd : List Char) (ip : Ip) (s : Bool) (out err : List Char) (es : List (List Char × CmdrEntry)) (hes : es ≠ []) :
    journalText errText socket [(date, .finished cmd ip s out (err ++ '\n' :: (journalText errText socket es).dropLast))] =
      journalText errText socket ((date, .finished cmd ip s out err) :: es) := by
  have hj : ∀ es : List (List Char × CmdrEntry), es ≠ [] → (journalText errText socket es).dropLast ++ ['\n'] = journalText errText socket es := by
    intro es hne
    induction es with
    | nil => exact absurd rfl hne
    | cons x es ih =>
      obtain ⟨d, e⟩ := x
      show (e.line errText socket d ++ '\n' :: journalText errText socket es).dropLast ++ _ = e.line errText socket d ++ '\n' :: journalText errText socket es
      cases es with
      | nil => simp [journalText]
      | cons y ys =>
        have := ih (by simp)
        have hne : journalText errText socket (y :: ys) ≠ [] := by
          obtain ⟨d', e'⟩ := y
          simp [journalText]
        rw [List.dropLast_append_of_ne_nil (by simp), List.dropLast_cons_of_ne_nil hne, List.append_assoc]
        show _ ++ '\n' :: (List.dropLast _ ++ ['\n']) = _
        rw [this]
  have h := hj es hes
  show CmdrEntry.line errText socket date (.finished cmd ip s out (err ++ '\n' :: (journalText errText socket es).dropLast)) ++ ['\n'] =
    CmdrEntry.line errText socket date (.finished cmd ip s out err) ++ '\n' :: journalText errText socket es
  generalize (journalText errText socket es).dropLast = b at h ⊢
  rw [← h]
  have hi : (CmdrEntry.finished cmd ip s out (err ++ '\n' :: b)).isInfo = (CmdrEntry.finished cmd ip s out err).isInfo := rfl
  unfold CmdrEntry.line CmdrEntry.text outcomeText
  rw [hi]
  generalize (if (CmdrEntry.finished cmd ip s out err).isInfo then " INFO ] ".toList else " ERROR ] ".toList) = level
  generalize (if s then "Execution was successful: ".toList else "Execution was not successful: ".toList) = how
  generalize " for ".toList = t1, "\nstdout: ".toList = t2, "\nstderr: ".toList = t3
  simp only [List.append_assoc, List.cons_append]

/-- **C120 is false**, in a life of the commander: it starts one command, which leaves such a text on standard error; the journal is that of a commander with any other entries `es` besides. -/
theorem C120_forged (T : TextCodec) (c : Commander) (pre : Path) (tf : Bool) (bytes : List Byte) (env : ChildEnv) (w : World) (h : U64) (ip : Ip) (spec : CommandSpec) (a b : U128)
    (cl : List (Option U128)) (hr : request (.stream tf bytes env) = some (h, ip)) (hg : c.cmds.get h = some spec) (hi : c.allowNonRoutable = true ∨ isRoutable ip = true) (hw : AllOk w)
    (hc : w.clock = some a :: some b :: cl) (s : Bool) (hs : pollLoop env.exit (deadlineOf env.startAt spec.timeout) env.rounds = .completed s)
    (errText : Err → List Char) (socket d1 d2 out err : List Char) (es : List (List Char × CmdrEntry)) (hes : es ≠ [])
    (ho : fileText T (env.effect (withCaptures w.fs w.newMode (captureOut pre a) (captureErr pre b)) (captureOut pre a)) = some out)
    (he : fileText T (env.effect (withCaptures w.fs w.newMode (captureOut pre a) (captureErr pre b)) (captureErr pre b)) = some (err ++ '\n' :: (journalText errText socket es).dropLast)) :
    (∃ l, (c.serve pre [.stream tf bytes env] w).2.log = w.log ++ l ∧ (spawns l).length ≤ 1) ∧
    journalText errText socket ([d1, d2].zip (c.serveLog T pre [.stream tf bytes env] w)) =
      journalText errText socket ((d1, .running h spec.cmd) :: (d2, .finished spec.cmd ip s out err) :: es) := by
  refine ⟨?_, ?_⟩
  · obtain ⟨l, hl, hsub⟩ := C29_failures_only_omit c pre [.stream tf bytes env] w
    refine ⟨l, hl, Nat.le_trans hsub.length_le ?_⟩
    exact Nat.le_trans (List.length_filterMap_le _ _) (Nat.le_refl 1)
  · rw [(C86_output_partial T c pre tf bytes env w h ip spec a b cl hr hg hi hw hc out _ ho he).1 s hs]
    have := C120_output_forges_entries errText socket d2 spec.cmd ip s out err es hes
    show CmdrEntry.line errText socket d1 (.running h spec.cmd) ++ '\n' :: journalText errText socket [(d2, .finished spec.cmd ip s out (err ++ '\n' :: (journalText errText socket es).dropLast))] =
      CmdrEntry.line errText socket d1 (.running h spec.cmd) ++ '\n' :: journalText errText socket ((d2, .finished spec.cmd ip s out err) :: es)
    rw [this]

instance (out : List Char) : Decidable (Innocent out) := by unfold Innocent; infer_instance

/-- Such a forged text and what is found in it. -/
def exForged : List Char := journalText (fun _ => []) [] [("d".toList, .finished "rm".toList (.v4 0x09090909) true [] [])]

/-- What an example command leaves on standard error, and the journal of the commander: one command was started, two are found. -/
def exForger : ChildEnv :=
  ⟨0, some (70000000, true), exEnv.rounds, fun fs q => if q = "/tmp/1-err".toList then some ⟨asciiCodec.enc ('\n' :: exForged.dropLast), 0o600, false, .creator⟩ else fs q⟩

example : fileText asciiCodec (exForger.effect (withCaptures (exCmdrWorld []).fs (exCmdrWorld []).newMode (captureOut "/tmp/".toList 0) (captureErr "/tmp/".toList 1)) (captureErr "/tmp/".toList 1)) =
    some ([] ++ '\n' :: exForged.dropLast) := by decide +kernel

example : executionsIn exForged = [("rm".toList, "9.9.9.9".toList, .successful)] := by
  have := C120_read_off_partial (fun _ => []) [] ⟨fun _ => by decide, fun _ => by decide, by decide⟩ [("d".toList, .finished "rm".toList (.v4 0x09090909) true [] [])] (by decide)
    (by intro x hx; cases List.mem_singleton.1 hx; exact ⟨by decide, by decide, by decide⟩)
  refine this.trans ?_
  decide +kernel

/-- The hypotheses of `C120_executions_partial` are met by a command that prints two lines. -/
example : Plain (.finished "ufw allow".toList (.v4 0x08080808) true "h\ni".toList []) := by
  refine ⟨by decide, ?_, ?_⟩ <;> decide +kernel

example : PlainTexts (fun _ => "Unknown command name: 7".toList) "\"/s\"".toList := ⟨fun _ => by decide, fun _ => by decide, by decide⟩

end Ruroco
