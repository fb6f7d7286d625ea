import Verif.Model.Client
import Verif.Spec.Delivery
import Verif.Spec.Client

/-!
# Specification vocabulary: several machines that share one key
-/

namespace Ruroco.Spec

/-- From left to right, those that exceed the mark `v` and everything kept before. -/
def records {α : Type} (key : α → Nat) : Nat → List α → List α
  | _, [] => []
  | v, x :: xs => if v < key x then x :: records key (key x) xs else records key v xs

/-- A run of `send` on one of the machines `ι`, with its circumstances. -/
structure SharedSend (ι : Type) where
  who : ι
  cmd : SendCmd
  env : SendEnv
  /-- the readings of that machine's clock -/
  clock : List (Option U128)
  /-- the addresses it sends to, all of them the server's -/
  dsts : List SockAddr
  /-- the address it claims with `--ip` -/
  claimed : Option Ip
  /-- the circumstances in which its datagrams reach the server (the bytes given here do not matter) -/
  meets : Nat → Arrival

/-- `f` with another value at `i`. -/
def setAt {ι α : Type} [DecidableEq ι] (f : ι → α) (i : ι) (a : α) : ι → α := fun j => if j = i then a else f j

/-- How many requests machine `i` makes. -/
def total {ι : Type} [DecidableEq ι] (i : ι) (ts : List (SharedSend ι)) : Nat := ((ts.filter (fun t => decide (t.who = i))).map (fun t => t.dsts.length)).sum

/-- From left to right, those that exceed the mark `v` and everything kept before, and are not above their own limit. -/
def recordsWithin {α : Type} (key limit : α → Nat) : Nat → List α → List α
  | _, [] => []
  | v, x :: xs => if v < key x ∧ key x ≤ limit x then x :: recordsWithin key limit (key x) xs else recordsWithin key limit v xs

/-- A request: which machine made it, with which counter, the server's clock when it arrives, which command it names, for which address. -/
structure SharedRequest (ι : Type) where
  who : ι
  counter : Nat
  now : Nat
  cmdHash : U64
  ip : Ip

/-- The requests of one run, on a machine whose last counter is `c`. -/
def requestsOfSend {ι : Type} (hash : List Char → U64) (c : Nat) (t : SharedSend ι) : List (SharedRequest ι) :=
  (List.range t.dsts.length).map (fun j => ⟨t.who, c + 1 + j, (t.meets j).now.toNat, hash t.cmd.command, normalizeIp (t.claimed.getD (t.meets j).src)⟩)

/-- The requests in these runs, when machine `i`'s last counter is `c i` at first: each machine counts for itself. -/
def requestsOf {ι : Type} [DecidableEq ι] (hash : List Char → U64) : (ι → Nat) → List (SharedSend ι) → List (SharedRequest ι)
  | _, [] => []
  | c, t :: ts => requestsOfSend hash (c t.who) t ++ requestsOf hash (setAt c t.who (c t.who + t.dsts.length)) ts

/-- The machines' disks (`m i`: what machine `i` is like) and these runs, one after the other: the datagrams as they reach the server, each run's in the order sent. -/
def sharedSends {ι : Type} [DecidableEq ι] (A : Aead) (hash : List Char → U64) (dir : ι → Path) : (ι → World) → List (SharedSend ι) → List Arrival
  | _, [] => []
  | m, t :: ts =>
    let w := (m t.who).withEnv ⟨[], t.clock⟩ []
    let w' := (runSend A hash (dir t.who) false t.cmd t.env w).2
    ((datagrams w'.log).drop (datagrams w.log).length).mapIdx (fun j x => { t.meets j with dg := x.2.2.2 }) ++ sharedSends A hash dir (setAt m t.who w') ts

end Ruroco.Spec
