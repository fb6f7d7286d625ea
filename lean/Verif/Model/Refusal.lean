import Verif.Model.ServerLog

/-!
# What the server says about a datagram it does not act on

`Model/ServerLog` has the lines; here are the texts of the failures with the values in them. An error of the crate `anyhow` is shown (with `{e}`) as its outermost context only.
-/

namespace Ruroco

/-- The failures of `run_loop_iteration` with the values their texts contain. -/
inductive Refusal where
  /-- /repo/src/server/listener.rs:97-99 -/
  | badSize (count : Nat) (src : SockAddr)
  /-- /repo/src/server/rate_limiter.rs:37 -/
  | rateIp (ip : Ip) (max : Nat)
  /-- rate_limiter.rs:41 -/
  | rateGlobal (max : Nat)
  /-- listener.rs:129 -/
  | unknownKey (id : List Byte)
  /-- /repo/src/common/crypto/handler_ops.rs:84-85. The failures of the steps before (the cipher is missing, no memory) are not told apart from this one. -/
  | unopened
  /-- handler_ops.rs:87-89 -/
  | badLength
  /-- /repo/src/common/mod.rs:57 -/
  | clock
  /-- /repo/src/common/protocol/client_data.rs:62-64 -/
  | version (v : Byte)
  /-- /repo/src/server/handler.rs:23-29 -/
  | replayed (id : List Byte) (counter : U128) (stored : Option U128)
  /-- handler.rs:30-33 -/
  | future (id : List Byte) (counter max : U128)
  /-- handler.rs:34-38 -/
  | host (id : List Byte) (ips : List Ip) (dst : Ip)
  /-- handler.rs:39-46 -/
  | source (id : List Byte) (claimed : Option Ip) (actual : Ip)
  /-- handler.rs:77; what went wrong is in the inner errors, which are not shown -/
  | save
deriving DecidableEq, Repr

/-- The kind of failure, as in `Server.iteration`. -/
def Refusal.kind : Refusal → Err
  | .badSize .. => .badSize
  | .rateIp .. => .rateIp
  | .rateGlobal _ => .rateGlobal
  | .unknownKey _ => .unknownKey
  | .unopened => .decrypt
  | .badLength => .decrypt
  | .clock => .clock
  | .version _ => .version
  | .replayed .. => .replayed
  | .future .. => .future
  | .host .. => .dst
  | .source .. => .src
  | .save => .save

/-- The items of `{ips:?}`: the addresses as they are displayed. -/
def showIpItems : List Ip → List Char
  | [] => []
  | [a] => showIp a
  | a :: b :: rest => showIp a ++ ", ".toList ++ showIpItems (b :: rest)

/-- handler.rs:40-41 `client_src_ip_str` -/
def showClaimed : Option Ip → List Char
  | some ip => showIp ip
  | none => "none".toList

/-- The text of the failure, `format!("{e}")` in /repo/src/server/error_throttle.rs:34-41. -/
def Refusal.text : Refusal → List Char
  | .badSize count src => wrongSizeText count src
  | .rateIp ip max => rateText ip max
  | .rateGlobal max => "Global rate limit exceeded: more than ".toList ++ showRadix 10 max ++ " requests per second".toList
  | .unknownKey id => "Could not find key for id ".toList ++ showHexList id
  | .unopened => "Could not finalize decryption (tag mismatch)".toList
  | .badLength => "Plaintext length mismatch".toList
  | .clock => "system clock before epoch".toList
  | .version v => "Unsupported protocol version ".toList ++ showRadix 10 v.toNat ++ ", expected 1".toList
  | .replayed id counter stored =>
    "Invalid counter for key ".toList ++ showHexList id ++ " - ".toList ++ showRadix 10 counter.toNat ++ " is on blocklist, expected > ".toList ++ showOptNat (stored.map BitVec.toNat)
  | .future id counter max =>
    "Future counter for key ".toList ++ showHexList id ++ " - ".toList ++ showRadix 10 counter.toNat ++ " exceeds now + skew (".toList ++ showRadix 10 max.toNat ++
      "); not updating blocklist".toList
  | .host id ips dst => "Invalid host IP for key ".toList ++ showHexList id ++ " - expected [".toList ++ showIpItems ips ++ "] to contain ".toList ++ showIp dst
  | .source id claimed actual => "Invalid source IP for key ".toList ++ showHexList id ++ " - expected ".toList ++ showClaimed claimed ++ ", actual ".toList ++ showIp actual
  | .save => "Could not update block list".toList

/-- handler.rs:13-60 `validate_and_send_command`: the failure, in the decisions of `Server.validateAndSend`. -/
def Server.validateRefusal (s : Server) (keyId plaintext : List Byte) (src : Ip) (w : World) : Option Refusal :=
  match nowNanos.attempt w with
  | (.ok (.ok now), w1) =>
    match ClientData.deserialize plaintext with
    | .error _ => some (.version (plaintext.headD 0))
    | .ok d =>
      if s.bl.isCounterReplayed keyId d.counter then some (.replayed keyId d.counter (s.bl.getCounter keyId))
      else if d.counter.toNat > (maxFutureCounter now s.cfg.skewSeconds).toNat then some (.future keyId d.counter (maxFutureCounter now s.cfg.skewSeconds))
      else if !s.cfg.ips.contains d.dstIp then some (.host keyId s.cfg.ips d.dstIp)
      else if d.isSourceIpInvalid src then some (.source keyId d.srcIp src)
      else
        match (s.updateBlockList keyId d.counter w1).1 with
        | .ok (_, .error _) => some .save
        | _ => none
  | (.ok (.error _), _) => some .clock
  | _ => none

/-- listener.rs:120-131 `decrypt` and handler_ops.rs:66-92: the failure, if any. -/
def Server.decryptRefusal (A : Aead) (s : Server) (data : List Byte) : Option Refusal :=
  let (keyId, enc) := decode data
  match s.handlers.get keyId with
  | none => some (.unknownKey keyId)
  | some h =>
    match A.dec h.key (enc.take IV_SIZE) (slice enc IV_SIZE (IV_SIZE + TAG_SIZE)) (enc.drop (IV_SIZE + TAG_SIZE)) with
    | none => some .unopened
    | some plaintext => if plaintext.length ≠ PLAINTEXT_SIZE then some .badLength else none

/-- listener.rs:92-110 `run_loop_iteration`: the failure, in the decisions of `Server.iteration`. -/
def Server.refusal (A : Aead) (s : Server) (datagram : List Byte) (src : SockAddr) (rd : Readings) (w : World) : Option Refusal :=
  let received := datagram.take MSG_SIZE
  if received.length ≠ MSG_SIZE then some (.badSize received.length src)
  else
    let srcIp := normalizeIp src.ip
    match (s.rl.check srcIp s.cfg.maxPerIp s.cfg.maxGlobal rd).1 with
    | .error .rateIp => some (.rateIp srcIp s.cfg.maxPerIp)
    | .error _ => some (.rateGlobal s.cfg.maxGlobal)
    | .ok () =>
      match s.decryptRefusal A received with
      | some x => some x
      | none =>
        match s.decryptMsg A received with
        | .error _ => none
        | .ok (keyId, plaintext) => s.validateRefusal keyId plaintext srcIp w

/-- error_throttle.rs:20-43 `log`: the text of the error line about a datagram that arrives when the throttle is that of `s`, if one is written. -/
def Server.failureLine (A : Aead) (s : Server) (datagram : List Byte) (src : SockAddr) (rd : Readings) (tLog : Nat) (w : World) : Option (List Char) :=
  match s.refusal A datagram src rd w, (s.throttle.log tLog).1 with
  | some x, some n => some (throttledText x.text n)
  | _, _ => none

end Ruroco
