import Verif.Model.Run
import Verif.Model.TwoServers
import Verif.Model.Update
import Verif.Spec.Client
import Verif.Spec.CommanderEffects
import Verif.Spec.Config
import Verif.Spec.Delivery
import Verif.Spec.IpBlocks
import Verif.Spec.Keys
import Verif.Spec.Rate
import Verif.Spec.Server
import Verif.Spec.Ui
import Verif.Spec.Units
import Verif.Spec.Terms.UpdateRun
import Verif.Spec.Terms.Installation

/-!
# Words used in the statements of `Props/Growth.lean`
-/

namespace Ruroco

open Spec (onDisk Durable PowerLoss Survives Acceptable IsKeyFile keyOf)

/-- The installation knows the key `id`: the replay state named it in the beginning (`w`), or a start of the history found a key file with it. -/
def KnownKey (dir : Path) (w : World) (evs : List Ev) (id : List Byte) : Prop :=
  (∃ v, onDisk w (blocklistPath dir) id = some v) ∨ ∃ env cfg senv k, .start env cfg senv ∈ evs ∧ HasKey senv.dir k ∧ k.id = id

/-- Allowance for an event: nine calls for a datagram, fifteen for a start. -/
def Ev.allowance : Ev → Nat
  | .packet .. => 9
  | .start .. => 15
  | _ => 0

end Ruroco
