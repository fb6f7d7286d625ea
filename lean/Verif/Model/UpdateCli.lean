import Verif.Model.Update
import Verif.Model.Ui
import Verif.Model.Config

/-!
# The `update` command as a whole, and the configuration directory

/repo/src/client/update/mod.rs:36-65, /repo/src/client/update/filesystem.rs:17-45, /repo/src/client/mod.rs:22-39, /repo/src/client/config/mod.rs:36-62.

Directories are not part of the model's file system: what `exists` and `is_dir` answer is a parameter.
-/

namespace Ruroco

/-- /repo/src/client/config/commands.rs `UpdateCommand`. -/
structure UpdateArgs where
  force : Bool
  version : Option (List Char)
  binPath : Option Path
  server : Bool

/-- What surrounds `Updater::create`: the answers of `Path::exists` and `Path::is_dir`, `$HOME` (`none`: unset or not Unicode), the names drawn for the file by
which writing is tried. -/
structure DirEnv where
  exists_ : Path → Bool
  isDir : Path → Bool
  home : Option Path
  draws : List (List Char)

/-- github.rs:6 -/
def SERVER_BIN_DIR : Path := "/usr/local/bin".toList

/-- filesystem.rs:17-19 `check_if_writable`; the temporary file is removed when its handle goes out of scope. -/
def checkIfWritable (D : DirEnv) (p : Path) : Act Bool := do
  match ← (newTempFile p D.draws).attempt with
  | .ok t => do
    removeIgnoring t
    pure true
  | .error _ => pure false

/-- filesystem.rs:35-45 `validate_dir_path`. -/
def validateDirPath (D : DirEnv) (p : Path) : Act Path := do
  if !D.exists_ p then do
    atomicCall (.file .mkdir p) id
    pure p
  else if !D.isDir p then Act.throw .config
  else if !(← checkIfWritable D p) then Act.throw .config
  else pure p

/-- mod.rs:42-55: the directory to install to. -/
def chooseBinPath (D : DirEnv) (args : UpdateArgs) : Act Path := do
  match args.binPath with
  | some p =>
    if !D.exists_ p || !D.isDir p then Act.throw .config
    else if !(← checkIfWritable D p) then Act.throw .config
    else pure p
  | none =>
    if args.server then validateDirPath D SERVER_BIN_DIR
    else match D.home with
      | none => Act.throw .config
      | some h => validateDirPath D (pathPush (pathPush h ".local".toList) "bin".toList)

/-- mod.rs:36-65 `Updater::create`. -/
def Updater.create (D : DirEnv) (args : UpdateArgs) : Act Updater := do
  let dir ← chooseBinPath D args
  pure ⟨args.force, args.version, dir, args.server⟩

/-- /repo/src/client/mod.rs:22-39: `ruroco-client update`. -/
def runUpdate (confDir : Path) (held : Bool) (D : DirEnv) (args : UpdateArgs) (env : UpdEnv) : Act Unit := do
  acquireLock (confDir ++ "/client.lock".toList) held
  let u ← Updater.create D args
  u.update env

/-! ## The configuration directory -/

/-- The environment variables of the client (`none`: unset or not Unicode). -/
structure EnvVars where
  confDir : Option Path
  home : Option Path

/-- /repo/src/client/config/mod.rs:48-62 `get_conf_dir_linux`, the choice; `create_dir_all` is left out. -/
def getConfDir (v : EnvVars) (e : PathEnv) : Except Err Path :=
  match v.confDir with
  | some p => .ok p
  | none =>
    match v.home with
    | some h => .ok (pathPush (pathPush h ".config".toList) "ruroco".toList)
    | none =>
      match e.cwd with
      | some c => .ok c
      | none => .error .config

/-- /repo/src/client/send/core.rs:70-72 `get_counter_path`. -/
def getCounterPath (v : EnvVars) (e : PathEnv) : Except Err Path := do
  pure (pathPush (resolvePath e (← getConfDir v e)) "counter".toList)

/-- /repo/src/client/mod.rs:23-24, /repo/src/ui/mod.rs:24-25: the lock file of the command line client and of the interface. -/
def getLockPath (v : EnvVars) (e : PathEnv) : Except Err Path := do
  pure (pathPush (← getConfDir v e) "client.lock".toList)

end Ruroco
