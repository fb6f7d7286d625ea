import Verif.Model.Run
import Verif.Model.LogLine

/-!
# What the server writes to its log about datagrams

Lines at the level `debug` (off unless `RUROCO_LOG=debug`) are left out.
-/

namespace Ruroco

/-- The entries of the server's log that are about datagrams. -/
inductive SrvEntry where
  /-- /repo/src/server/handler.rs:52; `recorded`: the counter stored for the key -/
  | valid (keyId : List Byte) (cmd : U64) (counter : U128) (recorded : Option U128) (ip : Ip)
  /-- handler.rs:84 -/
  | sent
  /-- handler.rs:85-88 -/
  | notSent
  /-- /repo/src/server/error_throttle.rs:34-41 -/
  | failure (e : Err) (suppressed : Nat)
deriving DecidableEq, Repr

/-- Written with `info` (else with `error`). -/
def SrvEntry.isInfo : SrvEntry → Bool
  | .valid .. => true
  | .sent => true
  | _ => false

/-- `{:X}` of a byte. -/
def showHexUpper (b : Byte) : List Char := (showRadix 16 b.toNat).map Char.toUpper

/-- The elements of a list shown with `:X?`. -/
def showHexItems : List Byte → List Char
  | [] => []
  | [b] => showHexUpper b
  | b :: bs => showHexUpper b ++ ", ".toList ++ showHexItems bs

/-- `{key_id:X?}` of an array of bytes. -/
def showHexList (bs : List Byte) : List Char := '[' :: showHexItems bs ++ [']']

/-- `{server_counter:?}` of an optional number. -/
def showOptNat : Option Nat → List Char
  | none => "None".toList
  | some n => "Some(".toList ++ showRadix 10 n ++ ")".toList

/-- The text of an entry. `errText`: the text of an error; `socket`: the path of the socket as shown. -/
def SrvEntry.text (errText : Err → List Char) (socket : List Char) : SrvEntry → List Char
  | .valid keyId cmd counter recorded ip =>
    "Valid data for key ".toList ++ showHexList keyId ++ " - trying cmd ".toList ++ showRadix 10 cmd.toNat ++ " and counter ".toList ++ showRadix 10 counter.toNat ++ "|".toList ++
      showOptNat (recorded.map BitVec.toNat) ++ " with ".toList ++ showIp ip
  | .sent => "Successfully sent data to commander".toList
  | .notSent => "Could not send data to commander via socket ".toList ++ socket ++ ": ".toList ++ errText .io
  | .failure e n => throttledText (errText e) n

/-- handler.rs:82-90 `send_command`: what it writes. If the process dies, nothing. -/
def sendLog (counter : U128) (d : CommanderData) (w : World) : List SrvEntry :=
  match (writeToSocket counter d w).1 with
  | .ok () => [.sent]
  | .err _ => [.notSent]
  | .crash => []

/-- handler.rs:13-60 `validate_and_send_command`: what it writes, in the decisions of `Server.validateAndSend`. -/
def Server.validateLog (s : Server) (keyId plaintext : List Byte) (src : Ip) (w : World) : List SrvEntry :=
  match nowNanos.attempt w with
  | (.ok (.ok now), w1) =>
    match ClientData.deserialize plaintext with
    | .error _ => []
    | .ok d =>
      if s.bl.isCounterReplayed keyId d.counter then []
      else if d.counter.toNat > (maxFutureCounter now s.cfg.skewSeconds).toNat then []
      else if !s.cfg.ips.contains d.dstIp then []
      else if d.isSourceIpInvalid src then []
      else
        let ip := d.srcIp.getD src
        .valid keyId d.cmdHash d.counter (s.bl.getCounter keyId) ip ::
          match s.updateBlockList keyId d.counter w1 with
          | (.ok (_, .ok ()), w2) => sendLog d.counter { cmdHash := d.cmdHash, ip } w2
          | _ => []
  | _ => []

/-- /repo/src/server/listener.rs:92-110 `run_loop_iteration`: what it writes. -/
def Server.iterationLog (A : Aead) (s : Server) (datagram : List Byte) (src : Ip) (rd : Readings) (w : World) : List SrvEntry :=
  let received := datagram.take MSG_SIZE
  if received.length ≠ MSG_SIZE then []
  else
    let srcIp := normalizeIp src
    let (verdict, rl) := s.rl.check srcIp s.cfg.maxPerIp s.cfg.maxGlobal rd
    match verdict with
    | .error _ => []
    | .ok () =>
      match s.decryptMsg A received with
      | .error _ => []
      | .ok (keyId, plaintext) => { s with rl }.validateLog keyId plaintext srcIp w

/-- error_throttle.rs:20-43 `log`: the line written when an iteration ended like this, if any. -/
def throttleLog (tLog : Nat) : Out (Server × Except Err Unit) → List SrvEntry
  | .ok (s', .error e) => ((s'.throttle.log tLog).1.map (SrvEntry.failure e)).toList
  | _ => []

/-- listener.rs:83-86: what is written about one datagram, the line of the throttle last. -/
def Server.handleLog (A : Aead) (s : Server) (datagram : List Byte) (src : Ip) (rd : Readings) (tLog : Nat) (w : World) : List SrvEntry :=
  s.iterationLog A datagram src rd w ++ throttleLog tLog (s.iteration A datagram src rd w).1

/-- The log of the loop of `run` (`runLoop`): what is written about each datagram, in order. -/
def runLog (A : Aead) (s : Server) (w : World) : List Turn → List (List SrvEntry)
  | [] => []
  | t :: ts =>
    if t.shutdown then []
    else
      match t.recv with
      | .fatal => []
      | .retry => runLog A s w ts
      | .datagram dg src rd tl =>
        s.handleLog A dg src rd tl (w.withEnv t.env (dg.take MSG_SIZE)) ::
          match s.handleDatagram A dg src rd tl (w.withEnv t.env (dg.take MSG_SIZE)) with
          | (.ok (s', _), w') => runLog A s' w' ts
          | _ => []

end Ruroco
