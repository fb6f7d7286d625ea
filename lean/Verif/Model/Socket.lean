import Verif.Model.Protocol

/-!
# Choice of the listening socket
-/

namespace Ruroco

/-- What the server listens on: an address to bind, or the file descriptor inherited from systemd. -/
inductive Listen where
  | bind (address : List Char)
  | fd (n : Nat)
deriving DecidableEq, Repr

/-- The environment variables; `none`: not set (or not valid Unicode, which `env::var(..).ok()` treats the same). -/
structure SocketEnv where
  listenPid : Option (List Char)
  listenFds : Option (List Char)
  listenAddress : Option (List Char)

/-- `u32::to_string` -/
def showNat (n : Nat) : List Char := (toString n).toList

/-- /repo/src/server/socket.rs:12-64 `create_server_udp_socket`, up to the final `bind` (whose failure is `StartEnv.bindOk`).
/repo/src/common/mod.rs:50 `FALLBACK_BIND_PORT`. The match arms are in the order of the code. -/
def createServerUdpSocket (env : SocketEnv) (pid : Nat) (argument config : Option (List Char)) : Except Err Listen :=
  match env.listenPid, env.listenFds, env.listenAddress, argument with
  | _, _, _, some address => .ok (.bind address)
  | _, _, some address, none => .ok (.bind address)
  | some listenPid, some listenFds, none, none =>
    if listenPid = showNat pid ∧ listenFds = "1".toList then .ok (.fd 3)
    else if listenFds ≠ "1".toList then .error .config
    else if listenPid ≠ showNat pid then .error .config
    else configured config
  | _, _, none, none => configured config
where
  /-- socket.rs:49-62 -/
  configured : Option (List Char) → Except Err Listen
    | some address => .ok (.bind address)
    | none => .ok (.bind "[::]:34020".toList)

end Ruroco
