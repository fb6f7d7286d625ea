import Verif.Model.Run

/-!
# The receive loop and the clock on the wall: stopping the server

/repo/src/server/signal.rs:6-26 installs, for SIGTERM and SIGINT, a handler that sets a flag; its `SaFlags` are empty, so `SA_RESTART` is not set and a signal makes a blocking call return
`Interrupted`. /repo/src/server/listener.rs:66-88 looks at the flag once per turn.
-/

namespace Ruroco

/-- One turn of the loop with its durations in nanoseconds, as the environment decides them. -/
structure TimedTurn where
  /-- from looking at the flag to waiting in `recv_from` -/
  gap : Nat
  /-- how long `recv_from` has to wait; from one second on it times out -/
  wait : Nat
  recv : Recv
  /-- how the system calls made for the datagram go, if no signal interferes -/
  env : Env
  /-- from receiving the datagram to calling `connect`, or to the end if there is no `connect` -/
  before : Nat
  /-- how long `connect` waits for a place in the queue of the commander; `none`: for ever -/
  blocked : Option Nat
  /-- from the return of `connect` to the end of the turn -/
  after : Nat

inductive TimedEnd where
  | running (s : Server) (t : Nat)
  | stopped (t : Nat)
  | failed (t : Nat)
  | died (t : Nat)
  /-- in `connect`, and for ever -/
  | hung

/-- The system calls of an accepted datagram when `connect` is interrupted: the sixth fails (/repo/src/common/fs.rs:19-59 makes five for the replay state: open, write, fsync, rename, fsync of the
directory). `UnixStream::connect` does not retry: handler.rs:93-94 turns `Interrupted` into an error, and `send_command` (handler.rs:82-90) only logs it. The other calls are retried by the standard
library (`open`, `write_all`, `fsync`) or are not interrupted by signals. -/
def interruptedConnect (env : Env) : Env := { env with oracle := (env.oracle ++ List.replicate 5 Choice.ok).take 5 ++ .err 0 :: env.oracle.drop 6 }

/-- What a turn leads to: the next turn, or the end. -/
inductive Next where
  | go (s : Server) (t : Nat)
  | over (e : TimedEnd)

/-- After a datagram was processed at `t`. -/
def Next.ofOut (t : Nat) : Out (Server × Except Err Unit) → Next
  | .ok (s, _) => .go s t
  | .err _ => .over (.failed t)
  | .crash => .over (.died t)

/-- The processing of a datagram that was received at `r`, the signal coming at `σ`: when it interrupts `connect`, that returns at once. A signal that comes before `connect` is called does not
interrupt it. -/
def timedHandle (A : Aead) (σ : Nat) (s : Server) (w : World) (r : Nat) (x : TimedTurn) (dg : List Byte) (src : Ip) (rd : Readings) (tl : Nat) : Next × World :=
  let free := s.handleDatagram A dg src rd tl (w.withEnv x.env (dg.take MSG_SIZE))
  let cut := s.handleDatagram A dg src rd tl (w.withEnv (interruptedConnect x.env) (dg.take MSG_SIZE))
  let c := r + x.before
  if .connect ∈ free.2.log.drop w.log.length then
    match x.blocked with
    | some b =>
      if c < σ ∧ σ < c + b then (Next.ofOut (σ + x.after) cut.1, cut.2)
      else (Next.ofOut (c + b + x.after) free.1, free.2)
    | none =>
      if c < σ then (Next.ofOut (σ + x.after) cut.1, cut.2)
      else (.over .hung, cut.2)
  else (Next.ofOut c free.1, free.2)

/-- One turn of listener.rs:66-88, begun at `t`. `σ`: when the first signal comes. Third component: when a datagram was received in it. -/
def timedTurn (A : Aead) (σ : Nat) (s : Server) (w : World) (t : Nat) (x : TimedTurn) : (Next × World) × Option Nat :=
  if σ ≤ t then ((.over (.stopped t), w), none)
  else
    let enter := t + x.gap
    let r := enter + min x.wait SECOND
    if enter < σ ∧ σ < r then ((.go s σ, w), none)
    else if SECOND ≤ x.wait then ((.go s r, w), none)
    else
      match x.recv with
      | .fatal => ((.over (.failed r), w), none)
      | .retry => ((.go s r, w), none)
      | .datagram dg src rd tl => (timedHandle A σ s w r x dg src rd tl, some r)

/-- listener.rs:66-88 from `t` on, with the instants at which datagrams were received. -/
def timedLoop (A : Aead) (σ : Nat) (s : Server) (w : World) (t : Nat) : List TimedTurn → (TimedEnd × World) × List Nat
  | [] => ((.running s t, w), [])
  | x :: xs =>
    match timedTurn A σ s w t x with
    | ((.go s' t', w'), r) => ((timedLoop A σ s' w' t' xs).1, r.toList ++ (timedLoop A σ s' w' t' xs).2)
    | ((.over e, w'), r) => ((e, w'), r.toList)

end Ruroco
