import Verif.Model.Commander

/-!
# Specification vocabulary for the commander
-/

namespace Ruroco.Spec

/-- The commands started, in order, with the address each was given. -/
def spawns (l : List Event) : List (List Char × Ip) :=
  l.filterMap (fun e => match e with
    | .spawn cmd ip => some (cmd, ip)
    | _ => none)

/-- The shell text of an entry of commands.toml. -/
def commandText : CommandValue → List Char
  | .plain t => t
  | .detailed t _ => t

/-- Its time limit in seconds: the configured one, else thirty. -/
def timeLimit : CommandValue → Nat
  | .plain _ => 30
  | .detailed _ none => 30
  | .detailed _ (some t) => t.toNat

/-- What a connection asks for, by its first 24 bytes alone: eight bytes of hash, sixteen bytes of address. -/
def request : Conn → Option (U64 × Ip)
  | .acceptFailed => none
  | .stream timeoutFails bytes _ =>
    if timeoutFails = true ∨ bytes.length < 24 then none
    else some (BitVec.ofNat 64 (ofBE (bytes.take 8)), deserializeIp ((bytes.drop 8).take 16))

/-- The command a connection is entitled to start. -/
def commandFor (c : Commander) (k : Conn) : Option (List Char × Ip) :=
  match request k with
  | none => none
  | some (h, ip) =>
    match c.cmds.get h with
    | none => none
    | some spec => if c.allowNonRoutable = true ∨ isRoutable ip = true then some (spec.cmd, ip) else none

/-- The polling loop is timely: from one look at the child to the next clock reading, and from the end of a sleep to the next look, at most `δ`
passes; a sleep lasts at least and (up to `δ`) at most the polling interval, the time the program asks for. `t`: earliest time of the first look. -/
def Timely (δ : Nat) (t : Nat) : List Round → Prop
  | [] => True
  | r :: rest => t ≤ r.waitAt ∧ r.waitAt ≤ t + δ ∧ r.waitAt ≤ r.now ∧ r.now ≤ r.waitAt + δ ∧ Timely δ (r.now + POLL_INTERVAL) rest

instance decidableTimely (δ t : Nat) : (rs : List Round) → Decidable (Timely δ t rs)
  | [] => isTrue True.intro
  | r :: rest =>
    have := decidableTimely δ (r.now + POLL_INTERVAL) rest
    inferInstanceAs (Decidable (_ ∧ _))

/-- No call on the child fails. -/
def NoFailures (rounds : List Round) : Prop := ∀ r ∈ rounds, r.waitFails = false ∧ r.killFails = false ∧ r.reapFails = false

instance (rounds : List Round) : Decidable (NoFailures rounds) := inferInstanceAs (Decidable (∀ r ∈ rounds, _))

end Ruroco.Spec
