import Verif.Model.Update

/-!
# What an update says

/repo/src/client/update/mod.rs and filesystem.rs once more, with the lines they write. Left out are time stamps and, of the errors that the runtime shows when `main` returns them
(/repo/src/bin/client.rs:6-8), all but the two that say what was done: the refusal of a downgrade and the failure to install.
-/

namespace Ruroco

/-- The lines of an update. -/
inductive UpdLine where
  /-- /repo/src/client/update/mod.rs:71, 78, standard output -/
  | already (version : List Char)
  /-- mod.rs:94-97, standard output -/
  | uncomparable (current tag : List Char)
  /-- mod.rs:87-92, the error returned -/
  | refusedDowngrade (current tag : List Char)
  /-- filesystem.rs:55, standard output -/
  | downloading (url : List Char)
  /-- mod.rs:143-145, standard error; the reason after the name is left out -/
  | notRolledBack (name : List Char)
  /-- mod.rs:148-150, the error returned: where the update failed and what it calls rolled back -/
  | failedApplying (name : List Char) (rolledBack : List (List Char))
  /-- mod.rs:120-124, standard output -/
  | serverUpdated
deriving DecidableEq, Repr

/-- `{applied:?}` of a list of names without characters that need escaping: the items. -/
def showNames : List (List Char) → List Char
  | [] => []
  | [n] => '"' :: n ++ ['"']
  | n :: rest => '"' :: n ++ "\", ".toList ++ showNames rest

/-- The texts, cited at `UpdLine`; `why` is what follows the name of a binary that could not be rolled back. -/
def UpdLine.text (why : List Char → List Char) : UpdLine → List Char
  | .already v => "Already using version ".toList ++ v
  | .uncomparable c t => "Could not compare versions ".toList ++ c ++ " and ".toList ++ t ++ "; proceeding".toList
  | .refusedDowngrade c t => "Refusing to downgrade from ".toList ++ c ++ " to ".toList ++ t ++ "; pass --version ".toList ++ t ++ " explicitly to roll back".toList
  | .downloading url => "downloading from ".toList ++ url
  | .notRolledBack n => "Could not roll back ".toList ++ n ++ " after failed update: ".toList ++ why n
  | .failedApplying n l => "Update failed while applying ".toList ++ n ++ "; rolled back [".toList ++ showNames l ++ "]".toList
  | .serverUpdated => "Server binaries updated; restart the ruroco-server and ruroco-commander services to apply the update (e.g. `systemctl restart ruroco-server ruroco-commander`).".toList

/-- An action that also writes lines; they are kept however it ends. -/
def Tell (α : Type) := World → Out α × World × List UpdLine

namespace Tell

def pure (a : α) : Tell α := fun w => (.ok a, w, [])

def bind (m : Tell α) (f : α → Tell β) : Tell β := fun w =>
  match m w with
  | (.ok a, w', l) => ((f a w').1, (f a w').2.1, l ++ (f a w').2.2)
  | (.err e, w', l) => (.err e, w', l)
  | (.crash, w', l) => (.crash, w', l)

instance : Monad Tell where
  pure := pure
  bind := bind

/-- A silent action. -/
def lift (m : Act α) : Tell α := fun w => ((m w).1, (m w).2, [])

/-- Write lines. -/
def say (lines : List UpdLine) : Tell Unit := fun w => (.ok (), w, lines)

/-- Without the lines. -/
def mute (m : Tell α) : Act α := fun w => ((m w).1, (m w).2.1)

end Tell

/-- mod.rs:103-113 with filesystem.rs:55: what is said while downloading, as `downloadAll`. -/
def downloadLines (env : UpdEnv) (r : Release) : Nat → List Target → List UpdLine
  | _, [] => []
  | i, t :: ts =>
    match getDownloadUrl r.assets (assetName env t.pfx r.tag), getDownloadUrl r.assets (assetName env t.pfx r.tag ++ ".sig".toList) with
    | .ok binUrl, .ok sigUrl =>
      .downloading binUrl :: match downloadAndVerify env i binUrl sigUrl with
        | .ok _ => downloadLines env r (i + 1) ts
        | .error _ => []
    | _, _ => []

/-- mod.rs:67-113: what is said up to the point at which all is downloaded, as `Updater.plan`. -/
def Updater.planLines (u : Updater) (env : UpdEnv) : List UpdLine :=
  if !u.force && u.version == some env.current then [.already env.current]
  else match selectRelease env.releases u.version with
    | .error _ => []
    | .ok r =>
      if !u.force && env.current == r.tag then [.already env.current]
      else if !u.force && u.version.isNone && isDowngrade env.current r.tag == some true then [.refusedDowngrade env.current r.tag]
      else (if !u.force && u.version.isNone && isDowngrade env.current r.tag == none then [.uncomparable env.current r.tag] else []) ++ downloadLines env r 0 u.targets

/-- mod.rs:141-147, as `rollbackAll`. -/
def rollbackAllT (dir : Path) : List (List Char) → Tell Unit
  | [] => pure ()
  | name :: rest => do
    match ← Tell.lift (rollbackBin dir name).attempt with
    | .ok () => rollbackAllT dir rest
    | .error _ => do
      Tell.say [.notRolledBack name]
      Tell.lift (note (.rollbackFailed (binFile dir name)))
      rollbackAllT dir rest

/-- mod.rs:133-155 `swap_all`, as `swapAll`. -/
def swapAllT (dir : Path) (names : Bool) : List (List Char) → List Verified → Tell Unit
  | _, [] => pure ()
  | applied, v :: vs => do
    match ← Tell.lift (saveBin dir names v).attempt with
    | .ok () => swapAllT dir names (v.name :: applied) vs
    | .error e => do
      rollbackAllT dir (v.name :: applied)
      Tell.say [.failedApplying v.name (v.name :: applied).reverse]
      Tell.lift (Act.throw e)

/-- mod.rs:67-128 `update`. -/
def Updater.updateT (u : Updater) (env : UpdEnv) : Tell Unit := do
  Tell.say (u.planLines env)
  match ← Tell.lift (Act.ofExcept (u.plan env)) with
  | none => pure ()
  | some verified => do
    swapAllT u.binPath env.names [] verified
    Tell.say (if u.server then [.serverUpdated] else [])

end Ruroco
