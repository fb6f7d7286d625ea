import Verif.Model.Run
import Verif.Spec.Delivery
import Verif.Spec.Keys
import Verif.Spec.Rate
import Verif.Spec.Server
import Verif.Spec.Terms.Run
import Verif.Spec.Terms.ServerRate

/-!
# Words used in the statements of `Props/KeyLife.lean`
-/

namespace Ruroco

open Spec (Acceptable Seals RateOk forwards message IsKeyFile keyOf)

/-- Key files of the directory `dir` contain the key `k`. -/
def HasKey (dir : Option (List DirEntry)) (k : CryptoHandler) : Prop := ∃ es, dir = some es ∧ ∃ e ∈ es, IsKeyFile e ∧ keyOf e = some k

/-- An event during which a running server stays in memory. -/
def Ev.quiet : Ev → Prop
  | .packet .. => True
  | .others => True
  | _ => False

/-- The history `evs` ends in the life time of a server started with directory `dir`: its last start is the one given, and nothing stopped it since. -/
def LastStart (evs : List Ev) (dir : Option (List DirEntry)) : Prop :=
  ∃ pre env cfg senv mid, evs = pre ++ .start env cfg senv :: mid ∧ senv.dir = dir ∧ ∀ e ∈ mid, e.quiet

/-- Datagrams naming this key. -/
def Arrival.named (id : List Byte) (a : Arrival) : Bool := a.dg.take 8 == id

end Ruroco
