import Verif.Model.History

/-!
# The receive loop
-/

namespace Ruroco

/-- Result of `recv_from` with its one-second timeout. -/
inductive Recv where
  | datagram (dg : List Byte) (src : Ip) (rd : Readings) (tLog : Nat)
  /-- `WouldBlock`, `TimedOut` or `Interrupted` -/
  | retry
  /-- any other error -/
  | fatal

/-- One turn of the loop as the environment decides it: value of the shutdown flag when it is checked, what `recv_from` returns, and
what the operating system does while a datagram is processed. -/
structure Turn where
  shutdown : Bool
  recv : Recv
  env : Env

inductive RunEnd where
  /-- still in the loop -/
  | running (s : Server)
  /-- returned `Ok` after a shutdown request -/
  | stopped
  /-- returned an error -/
  | failed
  /-- the process was killed -/
  | died

/-- /repo/src/server/listener.rs:66-88, the loop of `run`. An error escaping from the processing of a datagram would end the loop; it
can not (`C18`), because listener.rs:83-86 hands it to the throttle. -/
def runLoop (A : Aead) (s : Server) (w : World) : List Turn → RunEnd × World
  | [] => (.running s, w)
  | t :: ts =>
    if t.shutdown then (.stopped, w)
    else
      match t.recv with
      | .fatal => (.failed, w)
      | .retry => runLoop A s w ts
      | .datagram dg src rd tl =>
        match s.handleDatagram A dg src rd tl (w.withEnv t.env (dg.take MSG_SIZE)) with
        | (.ok (s', _), w') => runLoop A s' w' ts
        | (.err _, w') => (.failed, w')
        | (.crash, w') => (.died, w')

/-- listener.rs:60-90 `run`: setting the read timeout may fail before the loop is entered. -/
def Server.run (A : Aead) (s : Server) (w : World) (timeoutOk : Bool) (ts : List Turn) : RunEnd × World :=
  if timeoutOk then runLoop A s w ts else (.failed, w)

end Ruroco
