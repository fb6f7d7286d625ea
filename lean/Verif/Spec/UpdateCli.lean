import Verif.Spec.Update
import Verif.Model.UpdateCli

/-!
# Specification: where an update goes, what an installed binary has to be
-/

namespace Ruroco.Spec

/-- The directory an update is for: the one asked for; else `/usr/local/bin` for the server side, `.local/bin` in the home directory for the client. -/
def InstallDir (args : UpdateArgs) (home : Option Path) (d : Path) : Prop :=
  match args.binPath with
  | some p => d = p
  | none =>
    if args.server then d = "/usr/local/bin".toList
    else ∃ h, home = some h ∧ d = h ++ (if h = [] ∨ h.getLast? = some '/' then ".local/bin".toList else "/.local/bin".toList)

/-- The directory can not be used: it is something else than a directory, or it was asked for and does not exist. -/
def Unusable (args : UpdateArgs) (D : DirEnv) (d : Path) : Prop :=
  (D.exists_ d = true ∧ D.isDir d = false) ∨ (args.binPath = some d ∧ D.exists_ d = false)

/-- The binaries of the release, verified, are in the installation directory. -/
def Installed (u : Updater) (env : UpdEnv) (r : Release) (w : World) : Prop :=
  ∀ (i : Nat) (t : Target), u.targets[i]? = some t → ∃ f, w.fs (u.binPath ++ "/".toList ++ t.name) = some f ∧ Authentic env r i t.pfx f.data

/-- What the makers of ruroco have published: `made pfx tag bytes` - they built and signed `bytes` as the binary `pfx` of release `tag`. -/
abbrev Made := (pfx tag : List Char) → List Byte → Prop

/-- Signatures can not be forged: only what the makers signed has a valid signature. -/
def Unforgeable (made : Made) (env : UpdEnv) : Prop := ∀ bytes sig, env.verify bytes sig = true → ∃ pfx tag, made pfx tag bytes

end Ruroco.Spec
