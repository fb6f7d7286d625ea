import Verif.Props.Config
import Verif.Spec.UnknownKeys

/-!
# Which keys of the configuration files are ignored (C67)

`C67_unknown_ignored` of Props/Config.lean says that a key of config.toml that a program does not know is ignored. Here the same is shown for commands.toml, on both of its levels, and that
in each of the four places the ignored keys are exactly the unknown ones: for each known key there is a file on which it matters.
-/

namespace Ruroco

open Spec

/-- A wrong value for a setting: a table. -/
private def wrong : Toml := .tbl []

/-- The smallest config.toml the server accepts. -/
private def least : Table := [("ips".toList, .arr [])]

/-- **C67, exactly, for the server.** The keys of config.toml the server ignores are exactly those that are not the name of one of its eight settings. -/
theorem C67_server_ignores_iff (k : List Char) : Ignored ConfigServer.deserialize k ↔ k ∉ serverSettings := by
  constructor
  · intro h hk
    simp only [serverSettings, List.mem_cons, List.not_mem_nil, or_false] at hk
    rcases hk with rfl | rfl | rfl | rfl | rfl | rfl | rfl | rfl
    · exact absurd (h [] [] (.arr [])) (by decide +kernel)
    all_goals exact absurd (h least [] wrong) (by decide +kernel)
  · exact fun hk a b x => (C67_unknown_ignored a b k x).1 hk

/-- **C67, exactly, for the commander.** -/
theorem C67_commander_ignores_iff (k : List Char) : Ignored ConfigCommander.deserialize k ↔ k ∉ commanderSettings := by
  constructor
  · intro h hk
    simp only [commanderSettings, List.mem_cons, List.not_mem_nil, or_false] at hk
    rcases hk with rfl | rfl | rfl | rfl | rfl
    all_goals exact absurd (h [] [] wrong) (by decide +kernel)
  · exact fun hk a b x => (C67_unknown_ignored a b k x).2 hk

/-- **C67, exactly, for commands.toml.** Beside the table `commands` everything is ignored. -/
theorem C67_commands_file_ignores_iff (k : List Char) : Ignored commandsDeserialize k ↔ k ≠ "commands".toList := by
  constructor
  · rintro h rfl
    exact absurd (h [] [] (.tbl [])) (by decide +kernel)
  · intro hk a b x
    unfold commandsDeserialize
    have : (a ++ (k, x) :: b).foldlM visitCommands none = (a ++ b).foldlM visitCommands none := by
      rw [List.foldlM_append, List.foldlM_append]
      congr 1
      funext f
      rw [List.foldlM_cons]
      simp only [visitCommands, if_neg hk, bind, Except.bind]
    rw [this]

/-- **C67, exactly, for the table of a command.** -/
theorem C67_command_ignores_iff (k : List Char) : Ignored (fun l => (Toml.tbl l).asCommand) k ↔ k ∉ commandSettings := by
  constructor
  · intro h hk
    simp only [commandSettings, List.mem_cons, List.not_mem_nil, or_false] at hk
    rcases hk with rfl | rfl
    · exact absurd (h [] [] (.str [])) (by decide +kernel)
    · exact absurd (h [("cmd".toList, .str [])] [] wrong) (by decide +kernel)
  · intro hk a b x
    replace hk : detailField k = .ignore := by
      simp only [commandSettings, List.mem_cons, List.not_mem_nil, or_false, not_or] at hk
      unfold detailField
      rw [if_neg hk.1, if_neg hk.2]
    have : (a ++ (k, x) :: b).foldlM DetailFields.visit {} = (a ++ b).foldlM DetailFields.visit {} := by
      rw [List.foldlM_append, List.foldlM_append]
      congr 1
      funext f
      rw [List.foldlM_cons]
      simp only [DetailFields.visit, hk, bind, Except.bind]
    show (Toml.tbl (a ++ (k, x) :: b)).asCommand = (Toml.tbl (a ++ b)).asCommand
    unfold Toml.asCommand
    simp only [this]

theorem visit_same (c : List Char) {v w : Toml} (h : v.asCommands = w.asCommands) (p q : Table) :
    (p ++ (c, v) :: q).foldlM visitCommands none = (p ++ (c, w) :: q).foldlM visitCommands none := by
  have h3 : ∀ f : Option (List (List Char × CommandValue)), visitCommands f (c, v) = visitCommands f (c, w) := by
    intro f
    unfold visitCommands fillField
    cases f with
    | none => simp only [h]
    | some _ => rfl
  simp only [List.foldlM_append, List.foldlM_cons, h3]

/-- So a misspelt line in the table of one command makes no difference to what the commander reads, wherever the command stands. -/
theorem C67_command_line_ignored (k : List Char) (hk : k ∉ commandSettings) (p q a b before after : Table) (name : List Char) (x : Toml) :
    commandsDeserialize (p ++ ("commands".toList, .tbl (before ++ (name, .tbl (a ++ (k, x) :: b)) :: after)) :: q) =
      commandsDeserialize (p ++ ("commands".toList, .tbl (before ++ (name, .tbl (a ++ b)) :: after)) :: q) := by
  have h1 : (Toml.tbl (a ++ (k, x) :: b)).asCommand = (Toml.tbl (a ++ b)).asCommand := (C67_command_ignores_iff k).2 hk a b x
  have h2 : Toml.asCommands (.tbl (before ++ (name, .tbl (a ++ (k, x) :: b)) :: after)) = Toml.asCommands (.tbl (before ++ (name, .tbl (a ++ b)) :: after)) := by
    simp only [Toml.asCommands, List.mapM_append, List.mapM_cons, readCommand, h1]
  unfold commandsDeserialize
  rw [visit_same _ h2 p q]

/-- `timeout` for `timeout_sec` is such a line, `max_request_per_second` (without the s) a line the server ignores, and a setting of the commander's is one the server ignores. -/
example : "timeout".toList ∉ commandSettings ∧ "max_request_per_second".toList ∉ serverSettings ∧ "socket_user".toList ∉ serverSettings ∧ "ips".toList ∈ serverSettings := by decide +kernel

end Ruroco
