import Verif.Model.RateLimiter

/-!
# Specification vocabulary for the rate limiter: request sequences in time
-/

namespace Ruroco.Spec

/-- A request reaching the limiter: source, arrival time, and the clock readings taken while it is checked. -/
structure Req where
  ip : Ip
  arr : Nat
  rd : Readings

/-- The clock is monotonic: arrivals and readings in program order never go back. -/
def Timed (t : Nat) : List Req → Prop
  | [] => True
  | r :: rs =>
    (t ≤ r.arr ∧ (∀ ip, r.arr ≤ r.rd.sweep ip ∧ r.rd.sweep ip ≤ r.rd.insert) ∧ r.rd.insert ≤ r.rd.ipElapsed ∧ r.rd.ipElapsed ≤ r.rd.ipReset ∧
      r.rd.ipReset ≤ r.rd.globalElapsed ∧ r.rd.globalElapsed ≤ r.rd.globalReset) ∧ Timed r.rd.globalReset rs

/-- The requests with their verdicts, and the final state. -/
def limit (m g : Nat) (rl : RateLimiter) : List Req → List (Req × Except Err Unit) × RateLimiter
  | [] => ([], rl)
  | r :: rs =>
    let x := rl.check r.ip m g r.rd
    let y := limit m g x.2 rs
    ((r, x.1) :: y.1, y.2)

/-- Was the request admitted? -/
def admitted (x : Req × Except Err Unit) : Bool := match x.2 with
  | .ok () => true
  | .error _ => false

/-- Was the request refused because of the limit of its own source? -/
def overOwn (x : Req × Except Err Unit) : Bool := match x.2 with
  | .error .rateIp => true
  | _ => false

def overGlobal (x : Req × Except Err Unit) : Bool := match x.2 with
  | .error .rateGlobal => true
  | _ => false

end Ruroco.Spec
