import Verif.Model.History
import Verif.Spec.Server

/-!
# Specification: a server nobody can reach
-/

namespace Ruroco.Spec

/-- All looks at the monotonic clock for one datagram see the time `t`. -/
def promptly (t : Nat) : Readings := ⟨fun _ => t, t, t, t, t, t⟩

/-- The limiter takes no time. -/
def Prompt : Ev → Prop
  | .packet _ _ _ rd _ => ∃ t, rd = promptly t
  | _ => True

/-- Until it ends, this server hands nothing to the commander, whatever arrives, from wherever, whenever, and whatever happens on the machine. -/
def Deaf (A : Aead) (s : Server) : Prop :=
  ∀ dir w evs sys, Run A dir ⟨w, some s⟩ evs sys → (∀ e ∈ evs, Prompt e ∧ ∀ env cfg senv, e ≠ .start env cfg senv) → forwards sys.w.log = forwards w.log

/-- No counter is left for any of its keys. -/
def Exhausted (s : Server) : Prop := ∀ id h v, s.handlers.get id = some h → s.bl.map.get id = some v → v.toNat = 2 ^ 128 - 1

end Ruroco.Spec
