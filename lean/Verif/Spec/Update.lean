import Verif.Model.Update

/-!
# Specification: releases, assets, versions

`toDigits 10` is the usual decimal notation.
-/

namespace Ruroco.Spec

/-- `x` is the first element of `l` satisfying `p`. -/
def FirstIn (p : α → Prop) (l : List α) (x : α) : Prop := ∃ before after, l = before ++ x :: after ∧ p x ∧ ∀ y ∈ before, ¬ p y

/-- The release an update is about: with a requested version the first with exactly that tag, otherwise the first that is not a prerelease. -/
def ChosenRelease (env : UpdEnv) (version : Option (List Char)) (r : Release) : Prop :=
  ∃ rs, env.releases = some rs ∧
    FirstIn (fun r => match version with
      | none => r.prerelease = false
      | some v => r.tag = v) rs r

/-- The download address of the first asset with exactly this name. -/
def AssetUrl (r : Release) (name url : List Char) : Prop := ∃ a, FirstIn (fun a : Asset => a.name = name) r.assets a ∧ a.url = url

/-- The `i`-th download delivered these bytes, at most 100 MiB. -/
def Received (env : UpdEnv) (i : Nat) (url : List Char) (bytes : List Byte) : Prop := env.fetch i url = some bytes ∧ bytes.length ≤ 100 * 1024 * 1024

/-- `bytes` is what was received for the asset `pfx-tag-arch-os` of the release, and the signature received for `pfx-tag-arch-os.sig` is valid for it. -/
def Authentic (env : UpdEnv) (r : Release) (i : Nat) (pfx : List Char) (bytes : List Byte) : Prop :=
  ∃ binUrl sigUrl sig,
    AssetUrl r (pfx ++ "-".toList ++ r.tag ++ "-".toList ++ env.arch ++ "-".toList ++ env.os) binUrl ∧
    AssetUrl r (pfx ++ "-".toList ++ r.tag ++ "-".toList ++ env.arch ++ "-".toList ++ env.os ++ ".sig".toList) sigUrl ∧
    Received env (2 * i) binUrl bytes ∧ Received env (2 * i + 1) sigUrl sig ∧ env.verify bytes sig = true

/-- There is nothing to do: not forced, and the running version was asked for or is the chosen release. -/
def UpToDate (u : Updater) (env : UpdEnv) : Prop :=
  u.force = false ∧ (u.version = some env.current ∨ ∃ r, ChosenRelease env u.version r ∧ r.tag = env.current)

/-- `vX.Y.Z`. -/
def versionText (x y z : Nat) : List Char := 'v' :: (Nat.toDigits 10 x ++ '.' :: (Nat.toDigits 10 y ++ '.' :: Nat.toDigits 10 z))

/-- Version `a` is lower than `b`. -/
def Lower (a b : Nat × Nat × Nat) : Prop := a.1 < b.1 ∨ (a.1 = b.1 ∧ (a.2.1 < b.2.1 ∨ (a.2.1 = b.2.1 ∧ a.2.2 < b.2.2)))

/-- The binaries of an installation directory: `(file name, mode, user owning it)` of what is installed for `server` or client. -/
def binaries (server : Bool) : List (String × Nat × Option String) :=
  if server then [("ruroco-commander", 0o100, none), ("ruroco-server", 0o500, some "ruroco")]
  else [("ruroco-client", 0o755, none), ("ruroco-client-ui", 0o755, none)]

end Ruroco.Spec
