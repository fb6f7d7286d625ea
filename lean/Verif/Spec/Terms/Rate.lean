import Verif.Spec.Rate

/-!
# Words used in the statements of `Props/Rate.lean`
-/

namespace Ruroco

open Spec (Req Timed limit admitted overOwn overGlobal)

/-- Failures at the given times; the error lines emitted, each as (time, number it says were suppressed), and the final state. -/
def throttle (t : ErrorThrottle) : List Nat → List (Nat × Nat) × ErrorThrottle
  | [] => ([], t)
  | now :: rest =>
    let x := t.log now
    let y := throttle x.2 rest
    ((match x.1 with | some n => [(now, n)] | none => []) ++ y.1, y.2)

end Ruroco
