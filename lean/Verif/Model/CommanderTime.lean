import Verif.Model.Commander

/-!
# How long the commander takes
-/

namespace Ruroco

/-- Bytes a peer of the Unix socket sends, each with the instant (nanoseconds) at which it can be read, in order. -/
abbrev Arrivals := List (Nat × Byte)

/-- One `read(2)`: bytes, end of stream, or the time limit; with the instant at which it returns. -/
inductive RecvResult where
  | got (bytes : List Byte) (rest : Arrivals) (at_ : Nat)
  | eof (at_ : Nat)
  | timedOut (at_ : Nat)
deriving DecidableEq, Repr

/-- `read(2)` called at `now` on a socket with the read time limit of one second (/repo/src/commander/mod.rs:74-76), into a buffer of `room > 0` bytes. It returns what is there (at least
one byte), waiting for the first byte for at most a second. `closes`: when the peer closes its end after the last byte. `wake`: the delay until the commander runs again; `count`: how many of the
bytes that are there the kernel hands over. Interrupted calls are left out. -/
def readOnce (p : Arrivals) (closes : Option Nat) (room now wake count : Nat) : RecvResult :=
  match p with
  | (a, b) :: rest =>
    if a ≤ now + SECOND then
      let t := max now a + wake
      let more := ((rest.takeWhile (fun x => decide (x.1 ≤ t))).take (min (room - 1) count)).map (·.2)
      .got (b :: more) (rest.drop more.length) t
    else .timedOut (now + SECOND + wake)
  | [] =>
    match closes with
    | some c => if c ≤ now + SECOND then .eof (max now c + wake) else .timedOut (now + SECOND + wake)
    | none => .timedOut (now + SECOND + wake)

/-- `read_exact` (mod.rs:89-95) of `room` bytes, `acc` being those read already, and the instant at which it returns. `wakes`: delay and count of each call; once they are used up there is no delay
and everything is handed over. The first argument bounds the number of calls: `room` is always enough. -/
def readExact : Nat → Arrivals → Option Nat → List (Nat × Nat) → Nat → Nat → List Byte → Except Err (List Byte) × Nat
  | 0, _, _, _, _, now, acc => (.ok acc, now)
  | fuel + 1, p, closes, wakes, room, now, acc =>
    if room = 0 then (.ok acc, now)
    else
      let w := wakes.headD (0, room)
      match readOnce p closes room now w.1 w.2 with
      | .got bs rest t => readExact fuel rest closes wakes.tail (room - bs.length) t (acc ++ bs)
      | .eof t => (.error .io, t)
      | .timedOut t => (.error .io, t)

/-- When the polling loop (/repo/src/commander/exec.rs:145-157, `pollLoop`) returns; `none`: still polling when the observation ends. -/
def pollEnd (exit : Option (Nat × Bool)) (deadline : Option Nat) : List Round → Option Nat
  | [] => none
  | r :: rest =>
    if r.waitFails then some r.waitAt
    else match exitedBy exit r.waitAt with
      | some _ => some r.waitAt
      | none => if deadline.any (fun d => decide (d ≤ r.now)) then some r.now else pollEnd exit deadline rest

/-- A connection and all that happens while it is served. `at_`: when it is made; `spawns`: the calls up to the start of the child work; `before`, `after`: time taken by what comes between reading
and the start of the child, and by what comes after (reading and removing the capture files, logging). -/
structure TimedConn where
  at_ : Nat
  peer : Arrivals
  closes : Option Nat
  wakes : List (Nat × Nat)
  before : Nat
  spawns : Bool
  exit : Option (Nat × Bool)
  rounds : List Round
  after : Nat

/-- Reading the request of a connection, from instant `now`. -/
def TimedConn.read (k : TimedConn) (now : Nat) : Except Err (List Byte) × Nat := readExact CMDR_DATA_SIZE k.peer k.closes k.wakes CMDR_DATA_SIZE now []

/-- mod.rs:73-87 `run_cycle` started at `now`: when it returns. -/
def Commander.cycleEnd (c : Commander) (k : TimedConn) (now : Nat) : Option Nat :=
  match k.read now with
  | (.error _, t) => some (t + k.after)
  | (.ok msg, t) =>
    let d := CommanderData.ofBytes msg
    match c.cmds.get d.cmdHash with
    | none => some (t + k.after)
    | some spec =>
      if (!c.allowNonRoutable && !isRoutable d.ip) || !k.spawns then some (t + k.before + k.after)
      else (pollEnd k.exit (deadlineOf (t + k.before) spec.timeout) k.rounds).map (· + k.after)

/-- mod.rs:57-71 `run`: connections are served one after the other; when the last one is done. -/
def Commander.serveEnd (c : Commander) (now : Nat) : List TimedConn → Option Nat
  | [] => some now
  | k :: ks =>
    match c.cycleEnd k (max now k.at_) with
    | none => none
    | some t => c.serveEnd t ks

end Ruroco
