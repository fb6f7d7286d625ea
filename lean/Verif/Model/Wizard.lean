import Verif.Model.UpdateCli

/-!
# The set-up wizard (/repo/src/client/wizard)

The wizard runs as root. Parent directories are taken to exist (creating a file in a missing directory is one of the failures of `openTrunc`).
-/

namespace Ruroco

/-- wizard_systemd.rs:7-11 -/
def CONFIG_TOML_PATH : Path := "/etc/ruroco/config.toml".toList
def COMMANDS_TOML_PATH : Path := "/etc/ruroco/commands.toml".toList
def RUROCO_SERVICE_FILE_PATH : Path := "/etc/systemd/system/ruroco.service".toList
def COMMANDER_SERVICE_FILE_PATH : Path := "/etc/systemd/system/ruroco-commander.service".toList
def SOCKET_FILE_PATH : Path := "/etc/systemd/system/ruroco.socket".toList

/-- What surrounds one run: the embedded files (wizard_systemd.rs:13-19), the exit code of `useradd` (`none`: could not be started or was killed by a signal), whether the
three `systemctl` calls succeed, the surroundings of `Updater::create` and of the update. -/
structure WizEnv where
  ruroco : List Byte
  commander : List Byte
  socket : List Byte
  config : List Byte
  commands : List Byte
  useradd : Option Nat
  reload : Bool
  enable : Bool
  start : Bool
  dirs : DirEnv
  upd : UpdEnv

/-- core.rs:69-75 `write_data`. -/
def writeData (p : Path) (data : List Byte) : Act Unit := do
  openTrunc p
  writeAll p data

/-- /repo/src/client/util.rs:5-12 `set_permissions`. -/
def setPermissions (p : Path) (mode : Nat) : Act Unit := do
  let _ ← stat p
  chmod p mode

/-- core.rs:48-56 `init_config_file` and 58-67 `init_commands_file`, which differ only in path and template. -/
def initFile (p : Path) (template : List Byte) : Act Unit := do
  if !(← pathExists p) then writeData p template
  setPermissions p 0o600

/-- wizard_systemd.rs:63-81 `create_ruroco_user`. -/
def createRurocoUser (code : Option Nat) : Act Unit := do
  note (.program ["useradd".toList, "--system".toList, "ruroco".toList, "--shell".toList, "/bin/false".toList])
  if code = some 9 then pure () else if code = some 0 then pure () else Act.throw .io

/-- wizard_systemd.rs:27-61: one `systemctl` call. -/
def systemctl (args : List (List Char)) (works : Bool) : Act Unit := do
  note (.program ("systemctl".toList :: args))
  if works then pure () else Act.throw .io

/-- wizard_systemd.rs:31-33 and 44-46 -/
def units : List (List Char) := ["ruroco.service".toList, "ruroco-commander.service".toList, "ruroco.socket".toList]

/-- wizard_systemd.rs:24: forced, latest version, standard directory, server binaries. -/
def wizardArgs : UpdateArgs := { force := true, version := none, binPath := none, server := true }

/-- wizard_systemd.rs:22-25 `update`. -/
def wizardUpdate (env : WizEnv) : Act Unit := do
  let u ← Updater.create env.dirs wizardArgs
  u.update env.upd

/-- core.rs:21-46 `run`. -/
def wizardRun (env : WizEnv) : Act Unit := do
  createRurocoUser env.useradd
  wizardUpdate env
  writeData RUROCO_SERVICE_FILE_PATH env.ruroco
  writeData COMMANDER_SERVICE_FILE_PATH env.commander
  writeData SOCKET_FILE_PATH env.socket
  initFile CONFIG_TOML_PATH env.config
  initFile COMMANDS_TOML_PATH env.commands
  systemctl ["daemon-reload".toList] env.reload
  systemctl ("enable".toList :: units) env.enable
  systemctl ("start".toList :: units) env.start

/-- /repo/src/client/mod.rs:22-24 and 39: `ruroco-client wizard`. -/
def runWizard (confDir : Path) (held : Bool) (env : WizEnv) : Act Unit := do
  acquireLock (confDir ++ "/client.lock".toList) held
  wizardRun env

end Ruroco
