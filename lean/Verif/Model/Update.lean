import Verif.Model.Commander
import Verif.Model.IpText

/-!
# The updater (/repo/src/client/update)

`Updater::create` (mod.rs:36-65: choice and check of the installation directory) is in Model/UpdateCli; here the directory is a field. HTTP, JSON decoding and
Ed25519 verification are parameters.
-/

namespace Ruroco

/-- github.rs:20-24 `GithubApiAsset`. -/
structure Asset where
  name : List Char
  url : List Char
deriving DecidableEq, Repr

/-- github.rs:26-32 `GithubApiData`. -/
structure Release where
  tag : List Char
  assets : List Asset
  prerelease : Bool
deriving DecidableEq, Repr

/-- mod.rs:19-29 `Updater`; the two fields overridable in tests are part of `UpdEnv`. -/
structure Updater where
  force : Bool
  version : Option (List Char)
  binPath : Path
  server : Bool

/-- What surrounds one update: the running version (`"v"` followed by `CARGO_PKG_VERSION`), `ARCH`, `OS`, the decoded answer of the releases API
(`none`: any failure), the body of the `i`-th download (`none`: any failure), `verify_ed25519` with the release key
(/repo/src/common/crypto/mod.rs:16-35), and whether the user and group name `ruroco` resolve. -/
structure UpdEnv where
  current : List Char
  arch : List Char
  os : List Char
  releases : Option (List Release)
  fetch : Nat → List Char → Option (List Byte)
  verify : List Byte → List Byte → Bool
  names : Bool

/-- mod.rs:159-172: asset prefix, file name, mode, user to own the file. -/
structure Target where
  pfx : List Char
  name : List Char
  mode : Nat
  owner : Option (List Char)
deriving DecidableEq, Repr

/-- mod.rs:159-172 `binary_targets`, with the names of github.rs:7-10. -/
def Updater.targets (u : Updater) : List Target :=
  if u.server then
    [⟨"commander".toList, "ruroco-commander".toList, 0o100, none⟩,
     ⟨"server".toList, "ruroco-server".toList, 0o500, some "ruroco".toList⟩]
  else
    [⟨"client".toList, "ruroco-client".toList, 0o755, none⟩,
     ⟨"client-ui".toList, "ruroco-client-ui".toList, 0o755, none⟩]

/-! ## Choosing what to download -/

/-- github.rs:43-71 `get_github_api_data_from`. -/
def selectRelease (releases : Option (List Release)) (version : Option (List Char)) : Except Err Release :=
  match releases with
  | none => .error .download
  | some rs =>
    let data := match version with
      | none => rs.find? (fun d => !d.prerelease)
      | some v => rs.find? (fun d => d.tag == v)
    match data with
    | none => .error .noRelease
    | some d => .ok d

/-- mod.rs:174-179 `get_download_url`. -/
def getDownloadUrl (assets : List Asset) (name : List Char) : Except Err (List Char) :=
  match assets.findSome? (fun a => if a.name = name then some a.url else none) with
  | some url => .ok url
  | none => .error .noAsset

/-- `u64::from_str`: an optional `+`, then decimal digits only. -/
def parseU64 (t : List Char) : Option Nat :=
  let ds := stripPlus t
  if ds ≠ [] ∧ ds.all (fun c => (toDigit 10 c).isSome) ∧ ofDigits 10 ds < 2 ^ 64 then some (ofDigits 10 ds) else none

/-- The text before the first `.`, and the text after it if there is one. -/
def splitDot : List Char → List Char × Option (List Char)
  | [] => ([], none)
  | c :: t => if c = '.' then ([], some t) else ((c :: (splitDot t).1), (splitDot t).2)

/-- mod.rs:185-191 `parse`: `trim_start_matches('v')`, `splitn(3, '.')`. -/
def parseVersion (tag : List Char) : Option (Nat × Nat × Nat) :=
  match splitDot (tag.dropWhile (· == 'v')) with
  | (_, none) => none
  | (major, some rest) =>
    match splitDot rest with
    | (_, none) => none
    | (minor, some patch) => do
      let a ← parseU64 major
      let b ← parseU64 minor
      let c ← parseU64 patch
      pure (a, b, c)

/-- Order of Rust tuples. -/
def versionLt (x y : Nat × Nat × Nat) : Bool :=
  decide (x.1 < y.1) || (decide (x.1 = y.1) && (decide (x.2.1 < y.2.1) || (decide (x.2.1 = y.2.1) && decide (x.2.2 < y.2.2))))

/-- mod.rs:184-193 `is_downgrade`. -/
def isDowngrade (current target : List Char) : Option Bool := do
  let t ← parseVersion target
  let c ← parseVersion current
  pure (versionLt t c)

/-! ## Downloading -/

/-- filesystem.rs:14 -/
def MAX_DOWNLOAD_BYTES : Nat := 100 * 1024 * 1024

/-- `reader.take(MAX_DOWNLOAD_BYTES + 1).read_to_end` on a response with this body. -/
def readCapped (body : List Byte) : List Byte := body.take (MAX_DOWNLOAD_BYTES + 1)

/-- filesystem.rs:21-33 `download_bytes`; `body`: the response, `none` if the request or reading it fails. -/
def downloadBytes (body : Option (List Byte)) : Except Err (List Byte) :=
  match body with
  | none => .error .download
  | some body =>
    if (readCapped body).length > MAX_DOWNLOAD_BYTES then .error .download else .ok (readCapped body)

/-- filesystem.rs:49-64 `download_and_verify_bin`; these are the downloads number `2 * i` and `2 * i + 1`. -/
def downloadAndVerify (env : UpdEnv) (i : Nat) (binUrl sigUrl : List Char) : Except Err (List Byte) := do
  let bin ← downloadBytes (env.fetch (2 * i) binUrl)
  let sig ← downloadBytes (env.fetch (2 * i + 1) sigUrl)
  if env.verify bin sig then pure bin else throw .signature

/-- mod.rs:106 -/
def assetName (env : UpdEnv) (pfx tag : List Char) : List Char := pfx ++ '-' :: tag ++ '-' :: env.arch ++ '-' :: env.os

/-- A verified download and where it goes: the tuples of mod.rs:112. -/
structure Verified where
  bytes : List Byte
  name : List Char
  mode : Nat
  owner : Option (List Char)
deriving DecidableEq, Repr

/-- mod.rs:103-113, from the `i`-th target on. -/
def downloadAll (env : UpdEnv) (r : Release) : Nat → List Target → Except Err (List Verified)
  | _, [] => pure []
  | i, t :: ts => do
    let name := assetName env t.pfx r.tag
    let binUrl ← getDownloadUrl r.assets name
    let sigUrl ← getDownloadUrl r.assets (name ++ ".sig".toList)
    let bytes ← downloadAndVerify env i binUrl sigUrl
    let rest ← downloadAll env r (i + 1) ts
    pure (⟨bytes, t.name, t.mode, t.owner⟩ :: rest)

/-! ## Applying -/

/-- `bin_path.join(name)` for a directory written without trailing slash. -/
def binFile (dir name : Path) : Path := dir ++ '/' :: name

/-- filesystem.rs:118-122 `old_backup_path`. -/
def oldPath (target : Path) : Path := target ++ ".old".toList

/-- `fs::copy` on Linux: open the source, create or truncate the destination (created with the source's mode less the umask), give it the source's
mode, copy the data. The data is not synced. -/
def copyFile (src dst : Path) : Act Unit := do
  atomicCall (.file .read src) id
  match ← peek src with
  | none => Act.throw .notFound
  | some f => do
    atomicCall (.file .copy dst) (fun w => w.setEntry dst (some ⟨[], (match w.fs dst with | some g => g.mode | none => f.mode - (f.mode &&& w.umask)),
      false, (match w.fs dst with | some g => g.owner | none => .creator)⟩))
    chmod dst f.mode
    writeAll dst f.data

/-- filesystem.rs:80-82: the copy, a failure of which is recorded in the log here. -/
def backupBin (target : Path) : Act Unit := do
  match ← (copyFile target (oldPath target)).attempt with
  | .ok () => pure ()
  | .error e => do
    note (.copyFailed target)
    Act.throw e

/-- filesystem.rs:69-96 `save_bin`. -/
def saveBin (dir : Path) (names : Bool) (v : Verified) : Act Unit := do
  let target := binFile dir v.name
  if ← pathExists target then backupBin target
  writeAtomicWithMode target v.bytes (some v.mode)
  match v.owner with
  | some ug => changeOwnership target ug ug names
  | none => pure ()

/-- filesystem.rs:102-116 `rollback_bin`. -/
def rollbackBin (dir : Path) (name : List Char) : Act Unit := do
  let target := binFile dir name
  if ← pathExists (oldPath target) then rename (oldPath target) target
  else if ← pathExists target then removeFile target
  else pure ()

/-- mod.rs:141-147: roll back `applied` (given in the order of rolling back); a failure is only logged. -/
def rollbackAll (dir : Path) : List (List Char) → Act Unit
  | [] => pure ()
  | name :: rest => do
    match ← (rollbackBin dir name).attempt with
    | .ok () => pure ()
    | .error _ => note (.rollbackFailed (binFile dir name))
    rollbackAll dir rest

/-- mod.rs:133-155 `swap_all`; `applied`: what was swapped so far, latest first. -/
def swapAll (dir : Path) (names : Bool) : List (List Char) → List Verified → Act Unit
  | _, [] => pure ()
  | applied, v :: vs => do
    match ← (saveBin dir names v).attempt with
    | .ok () => swapAll dir names (v.name :: applied) vs
    | .error e => do
      rollbackAll dir (v.name :: applied)
      Act.throw e

/-- mod.rs:67-128 `update`, up to the decision what to install: `none` if there is nothing to do. -/
def Updater.plan (u : Updater) (env : UpdEnv) : Except Err (Option (List Verified)) :=
  if !u.force && u.version == some env.current then .ok none
  else do
    let r ← selectRelease env.releases u.version
    if !u.force && env.current == r.tag then pure none
    else if !u.force && u.version.isNone && isDowngrade env.current r.tag == some true then throw .downgrade
    else
      let verified ← downloadAll env r 0 u.targets
      pure (some verified)

/-- mod.rs:67-128 `update`. -/
def Updater.update (u : Updater) (env : UpdEnv) : Act Unit := do
  match ← Act.ofExcept (u.plan env) with
  | none => pure ()
  | some verified => swapAll u.binPath env.names [] verified

end Ruroco
