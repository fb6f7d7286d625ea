import Verif.Model.Refusal

/-!
# The server's log with `RUROCO_LOG=debug`

/repo/src/common/logging.rs, and the two places where the server writes at the level `debug`.
-/

namespace Ruroco

/-- /repo/src/common/logging.rs:5-26: the three levels. -/
inductive Level where
  | info
  | debug
  | error
deriving DecidableEq, Repr

/-- logging.rs:7, 16, 24: the words. -/
def Level.label : Level → List Char
  | .info => "INFO".toList
  | .debug => "DEBUG".toList
  | .error => "ERROR".toList

/-- logging.rs:7, 16, 24: the colours. -/
def Level.code : Level → List Char
  | .info => "32".toList
  | .debug => "36".toList
  | .error => "31".toList

/-- logging.rs:28-34 `colorize` -/
def colorize (label code : List Char) (useColor : Bool) : List Char :=
  if useColor then '\x1b' :: '[' :: code ++ 'm' :: label ++ "\x1b[0m".toList else label

/-- logging.rs:5-26, the line without its end; `terminal`: whether the stream it is written to is a terminal. -/
def logLine (level : Level) (terminal : Bool) (date msg : List Char) : List Char :=
  '[' :: date ++ ' ' :: colorize level.label level.code terminal ++ " ] ".toList ++ msg

/-- logging.rs:52-54 `is_debug_log_level` (`eq_ignore_ascii_case`); `value` is the variable `RUROCO_LOG`, `none` if it is not set or not text. -/
def isDebugLogLevel : Option (List Char) → Bool
  | none => false
  | some v => v.map Char.toLower == "debug".toList

/-- The lines about datagrams. -/
inductive DbgLine where
  /-- /repo/src/server/listener.rs:101 -/
  | received (count : Nat) (src : SockAddr)
  /-- /repo/src/server/error_throttle.rs:21 -/
  | failed (x : Refusal)
  /-- a line of the level `info` or `error` -/
  | plain (x : SrvEntry)
deriving DecidableEq, Repr

/-- The level of a line. `info` and `debug` are written to the standard output, `error` to the standard error (logging.rs:8, 18, 25). -/
def DbgLine.level : DbgLine → Level
  | .received .. => .debug
  | .failed _ => .debug
  | .plain x => if x.isInfo then .info else .error

/-- The text of a line; for the parameters see `SrvEntry.text`. -/
def DbgLine.text (errText : Err → List Char) (socket : List Char) : DbgLine → List Char
  | .received count src => "Successfully received ".toList ++ showRadix 10 count ++ " bytes from ".toList ++ showSockAddr src
  | .failed x => x.text
  | .plain x => x.text errText socket

/-- listener.rs:83-86 and 92-110 with the lines of the level `debug`: what is written about one datagram. The line of the arrival comes before anything is decided about a datagram of the right size,
that of the failure before the throttle decides about its error line (error_throttle.rs:20-43). `debug`: `debug_enabled()`. -/
def Server.debugLog (A : Aead) (debug : Bool) (s : Server) (datagram : List Byte) (src : SockAddr) (rd : Readings) (tLog : Nat) (w : World) : List DbgLine :=
  (if debug && (datagram.take MSG_SIZE).length == MSG_SIZE then [.received MSG_SIZE src] else []) ++
    (s.iterationLog A datagram src.ip rd w).map .plain ++
    (if debug then ((s.refusal A datagram src rd w).map DbgLine.failed).toList else []) ++
    (throttleLog tLog (s.iteration A datagram src.ip rd w).1).map .plain

/-- The lines written in the loop (`runLoop`, `runLog`). With each turn comes the port a datagram came from. -/
def debugRun (A : Aead) (debug : Bool) (s : Server) (w : World) : List (Turn × Nat) → List DbgLine
  | [] => []
  | (t, port) :: ts =>
    if t.shutdown then []
    else
      match t.recv with
      | .fatal => []
      | .retry => debugRun A debug s w ts
      | .datagram dg src rd tl =>
        s.debugLog A debug dg ⟨src, port⟩ rd tl (w.withEnv t.env (dg.take MSG_SIZE)) ++
          match s.handleDatagram A dg src rd tl (w.withEnv t.env (dg.take MSG_SIZE)) with
          | (.ok (s', _), w') => debugRun A debug s' w' ts
          | _ => []

end Ruroco
