import Verif.Model.Wizard
import Verif.Model.UpdateLog

/-!
# Model: what the wizard says

/repo/src/client/wizard/core.rs and wizard_systemd.rs: the runs of `Model/Wizard` with the lines they write to standard output. The functions are those of `Model/Wizard`, written down again
with the lines; that they do the same is a theorem (`C128_same_run`).

Simplification: an error is returned, not written; its text is not modelled. What the programs run by the wizard write is not modelled.
-/

namespace Ruroco

/-- The lines. -/
inductive WizLine where
  /-- wizard_systemd.rs:64 -/
  | creatingUser
  /-- wizard_systemd.rs:75 -/
  | userExists
  /-- wizard_systemd.rs:23 -/
  | updating
  /-- a line of the update -/
  | upd (l : UpdLine)
  /-- core.rs:70 -/
  | creating (p : Path)
  /-- core.rs:49 -/
  | initConfig
  /-- core.rs:59 -/
  | initCommands
  /-- wizard_systemd.rs:54 -/
  | reloading
  /-- wizard_systemd.rs:41 -/
  | enabling
  /-- wizard_systemd.rs:28 -/
  | starting
  /-- core.rs:35-43: the seven lines at the end -/
  | installed
deriving DecidableEq, Repr

/-- The texts, cited at `WizLine`. -/
def WizLine.texts (why : List Char → List Char) : WizLine → List (List Char)
  | .creatingUser => ["Creating user 'ruroco' ...".toList]
  | .userExists => ["user ruroco already exists, skipping creation".toList]
  | .updating => ["Updating/Installing ruroco server binaries".toList]
  | .upd l => [l.text why]
  | .creating p => ["Creating ".toList ++ p ++ " ...".toList]
  | .initConfig => ["Initializing config file ".toList ++ CONFIG_TOML_PATH]
  | .initCommands => ["Initializing commands file ".toList ++ COMMANDS_TOML_PATH]
  | .reloading => ["Reloading systemd daemon ...".toList]
  | .enabling => ["Enabling systemd services ...".toList]
  | .starting => ["Starting systemd services ...".toList]
  | .installed => ["=========================================".toList, "Ruroco Server Side installed successfully".toList,
      "Please check the config in ".toList ++ CONFIG_TOML_PATH ++ " and edit it accordingly".toList, "Generate key file with ruroco-client gen command".toList,
      "Save key file you just generated in 'config_dir' as defined in ".toList ++ CONFIG_TOML_PATH, "Save key you just generated in your client secure key store".toList,
      "=========================================".toList]

/-- An action that also writes lines of the wizard; they are kept however it ends. -/
def WTell (α : Type) := World → Out α × World × List WizLine

namespace WTell

def pure (a : α) : WTell α := fun w => (.ok a, w, [])

def bind (m : WTell α) (f : α → WTell β) : WTell β := fun w =>
  match m w with
  | (.ok a, w', l) => ((f a w').1, (f a w').2.1, l ++ (f a w').2.2)
  | (.err e, w', l) => (.err e, w', l)
  | (.crash, w', l) => (.crash, w', l)

instance : Monad WTell where
  pure := pure
  bind := bind

/-- A silent action. -/
def lift (m : Act α) : WTell α := fun w => ((m w).1, (m w).2, [])

/-- A part of the update. -/
def embed (m : Tell α) : WTell α := fun w => ((m w).1, (m w).2.1, (m w).2.2.map .upd)

/-- Write a line. -/
def say (l : WizLine) : WTell Unit := fun w => (.ok (), w, [l])

/-- Without the lines. -/
def mute (m : WTell α) : Act α := fun w => ((m w).1, (m w).2.1)

end WTell

/-- core.rs:69-75 `write_data`. -/
def writeDataT (p : Path) (data : List Byte) : WTell Unit := do
  WTell.say (.creating p)
  WTell.lift (writeData p data)

/-- core.rs:48-56 `init_config_file` and 58-67 `init_commands_file`, which differ only in path, template and first line. -/
def initFileT (head : WizLine) (p : Path) (template : List Byte) : WTell Unit := do
  WTell.say head
  let there ← WTell.lift (pathExists p)
  if there then WTell.lift (setPermissions p 0o600)
  else do
    writeDataT p template
    WTell.lift (setPermissions p 0o600)

/-- wizard_systemd.rs:63-81 `create_ruroco_user`. -/
def createRurocoUserT (code : Option Nat) : WTell Unit := do
  WTell.say .creatingUser
  WTell.lift (note (.program ["useradd".toList, "--system".toList, "ruroco".toList, "--shell".toList, "/bin/false".toList]))
  if code = some 9 then WTell.say .userExists else if code = some 0 then pure () else WTell.lift (Act.throw .io)

/-- wizard_systemd.rs:27-61: one `systemctl` call. -/
def systemctlT (head : WizLine) (args : List (List Char)) (works : Bool) : WTell Unit := do
  WTell.say head
  WTell.lift (systemctl args works)

/-- wizard_systemd.rs:22-25 `update`. -/
def wizardUpdateT (env : WizEnv) : WTell Unit := do
  WTell.say .updating
  let u ← WTell.lift (Updater.create env.dirs wizardArgs)
  WTell.embed (u.updateT env.upd)

/-- core.rs:21-46 `run`. -/
def wizardRunT (env : WizEnv) : WTell Unit := do
  createRurocoUserT env.useradd
  wizardUpdateT env
  writeDataT RUROCO_SERVICE_FILE_PATH env.ruroco
  writeDataT COMMANDER_SERVICE_FILE_PATH env.commander
  writeDataT SOCKET_FILE_PATH env.socket
  initFileT .initConfig CONFIG_TOML_PATH env.config
  initFileT .initCommands COMMANDS_TOML_PATH env.commands
  systemctlT .reloading ["daemon-reload".toList] env.reload
  systemctlT .enabling ("enable".toList :: units) env.enable
  systemctlT .starting ("start".toList :: units) env.start
  WTell.say .installed

end Ruroco
