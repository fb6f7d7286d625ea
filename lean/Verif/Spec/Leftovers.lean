import Verif.Model.History
import Verif.Model.ClientHistory

/-!
# Specification: files a program leaves behind
-/

namespace Ruroco.Spec

/-- How many of the system calls fail, or are the last before the process dies. -/
def failures (o : List Choice) : Nat := (o.filter (fun c => c != .ok)).length

/-- Failing system calls in a history of the server. -/
def serverFailures : List Ev → Nat
  | [] => 0
  | .start env _ _ :: rest => failures env.oracle + serverFailures rest
  | .packet env _ _ _ _ :: rest => failures env.oracle + serverFailures rest
  | _ :: rest => serverFailures rest

/-- Failing system calls in a history of the client. -/
def clientFailures : List CEv → Nat
  | [] => 0
  | .send env _ _ _ :: rest => failures env.oracle + clientFailures rest
  | .reseed env _ :: rest => failures env.oracle + clientFailures rest
  | _ :: rest => clientFailures rest

/-- Every file that exists in `w'` but did not in `w` is one of the permanent files `P` or in the list. -/
def Leaves (P : Path → Prop) (w w' : World) (left : List Path) : Prop := ∀ q, w'.fs q ≠ none → w.fs q ≠ none ∨ P q ∨ q ∈ left

end Ruroco.Spec
