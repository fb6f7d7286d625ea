import Verif.Spec.CommanderLog

/-!
# Specification for C120: reading the commander's log

What somebody does who searches the journal for executions.
-/

namespace Ruroco.Spec

/-- The lines of a text. -/
def logLines : List Char → List (List Char)
  | [] => [[]]
  | c :: cs =>
    if c = '\n' then [] :: logLines cs
    else match logLines cs with
      | [] => [[c]]
      | l :: ls => (c :: l) :: ls

/-- What follows `p` in a text that begins with it. -/
def after (p l : List Char) : Option (List Char) := if p.isPrefixOf l then some (l.drop p.length) else none

/-- Cut at the first ` for `. -/
def cutFor : List Char → Option (List Char × List Char)
  | [] => none
  | c :: cs =>
    match after " for ".toList (c :: cs) with
    | some r => some ([], r)
    | none => (cutFor cs).map (fun p => (c :: p.1, p.2))

/-- How a command ended. -/
inductive Ending where
  | successful
  | unsuccessful
  | timedOut
  | failed
deriving DecidableEq, Repr

/-- The last word. -/
def lastWord (l : List Char) : List Char := (l.reverse.takeWhile (· ≠ ' ')).reverse

/-- `<command> for <address>` -/
def splitFor (l : List Char) : List Char × List Char := (l.take (l.length - (lastWord l).length - " for ".toList.length), lastWord l)

/-- The execution a message tells of: command, address, how it ended. -/
def executionSaid (msg : List Char) : Option (List Char × List Char × Ending) :=
  match after "Execution was successful: ".toList msg with
  | some r => some ((splitFor r).1, (splitFor r).2, .successful)
  | none =>
    match after "Execution was not successful: ".toList msg with
    | some r => some ((splitFor r).1, (splitFor r).2, .unsuccessful)
    | none =>
      match after "Execution timed out after ".toList msg with
      | some r => some ((splitFor ((r.dropWhile (· ≠ ':')).drop 2)).1, (splitFor ((r.dropWhile (· ≠ ':')).drop 2)).2, .timedOut)
      | none =>
        match after "Error executing ".toList msg with
        | some r => (cutFor r).map (fun p => (p.1, (p.2.takeWhile (· ≠ ' ')).dropLast, .failed))
        | none => none

/-- The execution a line tells of; only lines that begin with a bracket (the date follows) are entries. -/
def executionIn (line : List Char) : Option (List Char × List Char × Ending) :=
  match line with
  | '[' :: rest => executionSaid ((rest.dropWhile (· ≠ ']')).drop 2)
  | _ => none

/-- The executions a text tells of. -/
def executionsIn (text : List Char) : List (List Char × List Char × Ending) := (logLines text).filterMap executionIn

/-- The execution an entry stands for, in the same form. -/
def execution : CmdrEntry → Option (List Char × List Char × Ending)
  | .finished cmd ip s _ _ => some (cmd, showIp ip, if s then .successful else .unsuccessful)
  | .timedOut _ cmd ip _ _ => some (cmd, showIp ip, .timedOut)
  | .execFailed cmd ip _ => some (cmd, showIp ip, .failed)
  | _ => none

/-- No line of an output begins like an entry. (The first line of an output is shown behind `stdout: ` or `stderr: `.) -/
def Innocent (out : List Char) : Prop := ∀ l ∈ (logLines out).drop 1, l.head? ≠ some '['

/-- An entry about a command of one line with innocent output; where the command could not be run, its text must not contain ` for ` (or end with ` for`). -/
def Plain : CmdrEntry → Prop
  | .finished cmd _ _ out err => '\n' ∉ cmd ∧ Innocent out ∧ Innocent err
  | .timedOut _ cmd _ out err => '\n' ∉ cmd ∧ Innocent out ∧ Innocent err
  | .execFailed cmd _ _ => '\n' ∉ cmd ∧ ¬ " for ".toList <:+: cmd ++ [' ']
  | .running _ cmd => '\n' ∉ cmd
  | _ => True

/-- Dates and the texts of other errors are not mistaken for anything else. -/
structure PlainTexts (errText : Err → List Char) (socket : List Char) : Prop where
  oneLine : ∀ e, '\n' ∉ errText e
  noExecution : ∀ e, ¬ "Execution ".toList <+: errText e ∧ ¬ "Error executing ".toList <+: errText e
  socket : '\n' ∉ socket

end Ruroco.Spec
