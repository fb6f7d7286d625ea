import Verif.Model.Backlog

/-!
# Specification for C84: waiting connections
-/

namespace Ruroco

namespace Spec

/-- Not accepted by instant `t`. -/
def notAcceptedBy (t : Nat) (a : Option Nat) : Bool := a.all (fun x => decide (t < x))

/-- How many of the earlier connections are still waiting to be accepted at instant `t`. -/
def waitingAt (t : Nat) (earlier : List (Option Nat × Option Nat)) : Nat := (earlier.map (·.2)).countP (notAcceptedBy t)

/-- The instant at which the server gets to a request: when it is there and the connection for the one before has been made. -/
def turn (earlier : List (Option Nat × Option Nat)) (h : Handover) : Nat := max (((earlier.getLast?.bind (·.1)).getD 0)) h.ready

end Spec

end Ruroco
