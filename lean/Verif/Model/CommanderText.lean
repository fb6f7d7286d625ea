import Verif.Model.CommanderLog

/-!
# The text of the commander's log
-/

namespace Ruroco

/-- /repo/src/common/logging.rs:5-9, 22-26: what `info` and `error` write for an entry, without colours (neither stream is a terminal under systemd); `date` is `get_date_time()`. -/
def CmdrEntry.line (errText : Err → List Char) (socket date : List Char) (e : CmdrEntry) : List Char :=
  '[' :: date ++ (if e.isInfo then " INFO ] ".toList else " ERROR ] ".toList) ++ e.text errText socket

/-- The text in the journal: both streams go there (systemd's default for a service), each entry followed by a newline (`writeln!`). Writes that fail are not modelled. -/
def journalText (errText : Err → List Char) (socket : List Char) : List (List Char × CmdrEntry) → List Char
  | [] => []
  | (date, e) :: es => e.line errText socket date ++ '\n' :: journalText errText socket es

end Ruroco
