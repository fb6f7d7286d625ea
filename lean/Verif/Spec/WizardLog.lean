import Verif.Model.WizardLog

/-!
# Specification: the steps the wizard announces
-/

namespace Ruroco.Spec

/-- The lines that announce a step, in the order of the steps, and the report of success at the end. -/
def announcements : List WizLine :=
  [.creatingUser, .updating, .creating "/etc/systemd/system/ruroco.service".toList, .creating "/etc/systemd/system/ruroco-commander.service".toList,
    .creating "/etc/systemd/system/ruroco.socket".toList, .initConfig, .initCommands, .reloading, .enabling, .starting, .installed]

/-- Those among these lines, in their order. -/
def announced (lines : List WizLine) : List WizLine := lines.filter (fun l => decide (l ∈ announcements))

end Ruroco.Spec
