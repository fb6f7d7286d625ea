import Verif.Spec.UpdateCli
import Verif.Spec.Effects
import Verif.Model.Wizard

/-!
# Specification for C88: what an update and the wizard may do, and what the wizard leaves
-/

namespace Ruroco.Spec

/-- The files of an update for directory `d`: the binaries, their `.old` copies, the temporary siblings written to replace them, the file by which writing is tried. -/
def UpdateFile (server : Bool) (d q : Path) : Prop :=
  (∃ b ∈ binaries server, q = d ++ "/".toList ++ b.1.toList ∨ q = d ++ "/".toList ++ b.1.toList ++ ".old".toList ∨
    ∃ n : Nat, q = d ++ "/".toList ++ b.1.toList ++ ".".toList ++ (toString n).toList ++ ".tmp".toList) ∨
  ∃ draw : List Char, q = d ++ "/.tmp".toList ++ draw

/-- What an installer may be seen doing: operations on the files satisfying `F`, creating a directory satisfying `M`, running one of the programs `P` (each with its arguments). -/
inductive InstallMay (F M : Path → Prop) (P : List (List String)) : Event → Prop where
  | file (op : FileOp) (q : Path) (h : F q) : InstallMay F M P (.file op q)
  | mkdir (d : Path) (h : M d) : InstallMay F M P (.file .mkdir d)
  | statFailed (q : Path) (h : F q) : InstallMay F M P (.statFailed q)
  | dirSyncFailed (q : Path) (h : F q) : InstallMay F M P (.dirSyncFailed q)
  | removeFailed (q : Path) (h : F q) : InstallMay F M P (.removeFailed q)
  | copyFailed (q : Path) (h : F q) : InstallMay F M P (.copyFailed q)
  | rollbackFailed (q : Path) (h : F q) : InstallMay F M P (.rollbackFailed q)
  | program (argv : List String) (h : argv ∈ P) : InstallMay F M P (.program (argv.map String.toList))

/-- The programs the wizard runs. -/
def useraddCall : List String := ["useradd", "--system", "ruroco", "--shell", "/bin/false"]
def reloadCall : List String := ["systemctl", "daemon-reload"]
def enableCall : List String := ["systemctl", "enable", "ruroco.service", "ruroco-commander.service", "ruroco.socket"]
def startCall : List String := ["systemctl", "start", "ruroco.service", "ruroco-commander.service", "ruroco.socket"]

/-- This program was run. -/
def ran (argv : List String) : Event := .program (argv.map String.toList)

/-- The files of the wizard. -/
def WizardFile (q : Path) : Prop :=
  UpdateFile true "/usr/local/bin".toList q ∨
    q ∈ ["/etc/systemd/system/ruroco.service", "/etc/systemd/system/ruroco-commander.service", "/etc/systemd/system/ruroco.socket", "/etc/ruroco/config.toml", "/etc/ruroco/commands.toml"].map String.toList

/-- The file `p` has this content. -/
def Has (w : World) (p : String) (bytes : List Byte) : Prop := ∃ f, w.fs p.toList = some f ∧ f.data = bytes

/-- The server side is installed: the units are the shipped ones, the binaries are the verified ones of the latest release with the intended modes, configuration and commands are there and for
root only. -/
structure ServerSide (env : WizEnv) (w : World) : Prop where
  service : Has w "/etc/systemd/system/ruroco.service" env.ruroco
  commanderService : Has w "/etc/systemd/system/ruroco-commander.service" env.commander
  socket : Has w "/etc/systemd/system/ruroco.socket" env.socket
  config : ∃ f, w.fs "/etc/ruroco/config.toml".toList = some f ∧ f.mode = 0o600
  commands : ∃ f, w.fs "/etc/ruroco/commands.toml".toList = some f ∧ f.mode = 0o600
  binaries : ∃ r, ChosenRelease env.upd none r ∧
    (∃ f, w.fs "/usr/local/bin/ruroco-commander".toList = some f ∧ Authentic env.upd r 0 "commander".toList f.data ∧ f.mode = 0o100) ∧
    (∃ f, w.fs "/usr/local/bin/ruroco-server".toList = some f ∧ Authentic env.upd r 1 "server".toList f.data ∧ f.mode = 0o500 ∧ f.owner = ⟨"ruroco".toList, "ruroco".toList⟩)

/-- `p` is there in both states, with the same content and mode. -/
def SameFile (w w' : World) (p : String) : Prop := ∃ f f', w.fs p.toList = some f ∧ w'.fs p.toList = some f' ∧ f'.data = f.data ∧ f'.mode = f.mode

/-- The same, and it belongs to the same user and group. -/
def SameOwned (w w' : World) (p : String) : Prop := ∃ f f', w.fs p.toList = some f ∧ w'.fs p.toList = some f' ∧ f'.data = f.data ∧ f'.mode = f.mode ∧ f'.owner = f.owner

end Ruroco.Spec
