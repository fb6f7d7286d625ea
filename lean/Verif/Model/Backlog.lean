import Verif.Model.CommanderTime

/-!
# The queue between server and commander

The server hands every accepted request to the commander over a new connection (/repo/src/server/handler.rs:92-110). `UnixStream::connect` has no time limit: it returns once the connection is in the
listen queue of the commander's socket, and waits while that queue is full. The time limit of handler.rs:97-99 is set afterwards and applies to writing.
-/

namespace Ruroco

/-- A request the server hands over. `ready`: when the server gets to it, unless it is still busy with the one before. `service`: how long the commander needs from accepting the connection until it
accepts the next one (/repo/src/commander/mod.rs:60-69); `none`: it never does. -/
structure Handover where
  ready : Nat
  service : Option Nat
deriving DecidableEq, Repr

/-- handler.rs:93 `connect`, called at `now`, and /repo/src/commander/exec.rs:58 `bind`. `cap`: the number of connections that may wait in the listen queue; `accepted`: when the earlier connections
are accepted (`none`: never), latest first. With `cap` connections waiting the call returns when the first of these is accepted. Simplified: the call takes no time otherwise, and is not interrupted
by a signal. -/
def connectAt (cap : Nat) (accepted : List (Option Nat)) (now : Nat) : Option Nat :=
  match accepted[cap - 1]? with
  | none => some now
  | some a => a.map (max now)

/-- The instants at which the connections are made and accepted. `accepted`: as above; `free`: when the commander accepts next; `srv`: when the server is done with the request before. The server
is single-threaded (/repo/src/server/listener.rs:66-88): while it waits in `connect` it does nothing else, and if that does not return it does nothing any more. Writing 24 bytes to a new connection
does not block, and receiving, checking and storing take no time here. -/
def handOver (cap : Nat) (accepted : List (Option Nat)) (free : Option Nat) (srv : Nat) : List Handover → List (Option Nat × Option Nat)
  | [] => []
  | h :: rest =>
    match connectAt cap accepted (max srv h.ready) with
    | none => (h :: rest).map (fun _ => (none, none))
    | some c =>
      let a := free.map (max c)
      (some c, a) :: handOver cap (a :: accepted) (a.bind (fun t => h.service.map (t + ·))) c rest

/-- From the start, with an idle commander. -/
def handOverAll (cap : Nat) (hs : List Handover) : List (Option Nat × Option Nat) := handOver cap [] (some 0) 0 hs

end Ruroco
