import Verif.Model.Blocklist
import Verif.Model.Crypto
import Verif.Model.RateLimiter

/-!
# The server
-/

namespace Ruroco

/-- Fields of /repo/src/server/config.rs:25-71 `ConfigServer` used while running. `blDir` is the resolved
`blocklist_dir`/`config_dir`; `ips` are stored as parsed by `deserialize_ips`. -/
structure ServerCfg where
  ips : List Ip
  maxPerIp : Nat
  maxGlobal : Nat
  skewSeconds : U64
  blDir : Path

/-- config.rs:73-84 `deserialize_ips`, after parsing each text to an address (parsing: `Model/IpText`). -/
def loadIps (parsed : List Ip) : List Ip := parsed.map normalizeIp

/-- One entry of the configuration directory as `read_dir` sees it. `content` is what reading it as text gives (`none`: not
readable or not UTF-8). -/
structure DirEntry where
  name : List Char
  isFile : Bool
  content : Option (List Char)

/-- `Path::extension` of a file name: the text after the last dot, unless the only dot is the first character. -/
def extension (name : List Char) : Option (List Char) :=
  let ext := (name.reverse.takeWhile (· ≠ '.')).reverse
  let rest := name.take (name.length - ext.length)   -- ends in the last dot, if any
  if rest.length ≤ 1 then none else some ext

/-- /repo/src/server/keys.rs:56-74 `get_key_paths`. `none`: the directory can not be read. Entries that can not be listed are
skipped by `flatten`; they do not appear in the list. -/
def getKeyPaths (dir : Option (List DirEntry)) : Except Err (List DirEntry) :=
  match dir with
  | none => .error .io
  | some entries =>
    let keys := entries.filter (fun e => e.isFile && extension e.name == some "key".toList)
    if keys.length = 0 then .error .noKeys else .ok keys

/-- `HashMap<[u8; 8], CryptoHandler>`. -/
abbrev Handlers := List (List Byte × CryptoHandler)

def Handlers.get (m : Handlers) (id : List Byte) : Option CryptoHandler :=
  match m with
  | [] => none
  | (k, v) :: rest => if k = id then some v else Handlers.get rest id

/-- keys.rs:29-40, the loop of `create_crypto_handlers`. -/
def loadKeys : List DirEntry → Handlers → Except Err Handlers
  | [], acc => .ok acc
  | e :: rest, acc =>
    match e.content with
    | none => .error .io
    | some text =>
      match CryptoHandler.create text with
      | .error err => .error err
      | .ok h =>
        match Handlers.get acc h.id with
        | some _ => .error .duplicateKey
        | none => loadKeys rest (acc ++ [(h.id, h)])

/-- keys.rs:22-43 `create_crypto_handlers`. -/
def createCryptoHandlers (dir : Option (List DirEntry)) : Except Err Handlers :=
  match getKeyPaths dir with
  | .error e => .error e
  | .ok paths => loadKeys paths []

/-- /repo/src/server/listener.rs:22-33 `Server`. -/
structure Server where
  cfg : ServerCfg
  handlers : Handlers
  bl : Blocklist
  rl : RateLimiter
  throttle : ErrorThrottle

/-- What the environment of a start decides: directory content, hash-map iteration order, whether the UDP socket can be set up
(see `Model/Socket`), and the monotonic clock reading of `RateLimiter::new`. -/
structure StartEnv where
  dir : Option (List DirEntry)
  order : BlMap → BlMap
  bindOk : Bool
  mono : Nat

/-- listener.rs:40-58 `Server::create`. -/
def Server.create (cfg : ServerCfg) (env : StartEnv) : Act Server := do
  let handlers ← Act.ofExcept (createCryptoHandlers env.dir)
  let bl ← Blocklist.create cfg.blDir env.order
  let floor ← nowNanos
  let bl := handlers.foldl (fun b h => b.seedIfAbsent h.1 floor) bl
  bl.save
  if env.bindOk then
    pure { cfg, handlers, bl, rl := RateLimiter.new env.mono, throttle := ⟨none, 0⟩ }
  else Act.throw .io

/-- `u128::saturating_add`. -/
def satAdd (a b : U128) : U128 :=
  if a.toNat + b.toNat < 2 ^ 128 then a + b else BitVec.allOnes 128

/-- handler.rs:19-20: `now.saturating_add(u128::from(skew) * 1_000_000_000)`; the product is below 2^94. -/
def maxFutureCounter (now : U128) (skewSeconds : U64) : U128 :=
  satAdd now (BitVec.ofNat 128 (skewSeconds.toNat * 1000000000))

/-- /repo/src/server/handler.rs:92-110 `write_to_socket`; `counter` is a ghost argument. -/
def writeToSocket (counter : U128) (d : CommanderData) : Act Unit := do
  atomicCall .connect id
  atomicCall .connect id -- set_write_timeout
  fun w =>
    let fwd (bs : List Byte) (w : World) : World := { w with log := w.log ++ [.forward w.cur counter bs] }
    match w.oracle with
    | [] => (.ok (), fwd d.toBytes w)
    | .ok :: o => (.ok (), fwd d.toBytes { w with oracle := o })
    | .err k :: o => (.err .io, fwd (d.toBytes.take k) { w with oracle := o })
    | .crash k :: o => (.crash, fwd (d.toBytes.take k) { w with oracle := o })

/-- handler.rs:82-90 `send_command`: failures are only logged. -/
def sendCommand (counter : U128) (d : CommanderData) : Act Unit := do
  let _ ← (writeToSocket counter d).attempt
  pure ()

/-- handler.rs:62-80 `update_block_list`. -/
def Server.updateBlockList (s : Server) (keyId : List Byte) (counter : U128) : Act (Server × Except Err Unit) := do
  let previous := s.bl.getCounter keyId
  let bl' := s.bl.upsert keyId counter
  match ← (bl'.save).attempt with
  | .error _ =>
    let bl'' := match previous with
      | some prev => bl'.upsert keyId prev
      | none => bl'.remove keyId
    pure ({ s with bl := bl'' }, .error .save)
  | .ok () => pure ({ s with bl := bl' }, .ok ())

/-- handler.rs:13-60 `validate_and_send_command`. -/
def Server.validateAndSend (s : Server) (keyId plaintext : List Byte) (src : Ip) : Act (Server × Except Err Unit) := do
  match ← nowNanos.attempt with
  | .error e => pure (s, .error e)
  | .ok now =>
    let maxFuture := maxFutureCounter now s.cfg.skewSeconds
    match ClientData.deserialize plaintext with
    | .error e => pure (s, .error e)
    | .ok d =>
      if s.bl.isCounterReplayed keyId d.counter then pure (s, .error .replayed)
      else if d.counter.toNat > maxFuture.toNat then pure (s, .error .future)
      else if !s.cfg.ips.contains d.dstIp then pure (s, .error .dst)
      else if d.isSourceIpInvalid src then pure (s, .error .src)
      else do
        let ip := d.srcIp.getD src
        let (s', r) ← s.updateBlockList keyId d.counter
        match r with
        | .error e => pure (s', .error e)
        | .ok () => do
          sendCommand d.counter { cmdHash := d.cmdHash, ip }
          pure (s', .ok ())

/-- listener.rs:120-131 `decrypt`. -/
def Server.decryptMsg (A : Aead) (s : Server) (data : List Byte) : Except Err (List Byte × List Byte) :=
  let (keyId, enc) := decode data
  match s.handlers.get keyId with
  | none => .error .unknownKey
  | some h =>
    match h.decrypt A enc with
    | .error e => .error e
    | .ok p => .ok (keyId, p)

/-- listener.rs:92-110 `run_loop_iteration` for a datagram of any length. `recv_from` fills a 94-byte buffer, so a longer
datagram is reported as 94 bytes: its first 94 bytes are processed. -/
def Server.iteration (A : Aead) (s : Server) (datagram : List Byte) (src : Ip) (rd : Readings) :
    Act (Server × Except Err Unit) := do
  let received := datagram.take MSG_SIZE
  if received.length ≠ MSG_SIZE then pure (s, .error .badSize)
  else
    let srcIp := normalizeIp src
    let (verdict, rl) := s.rl.check srcIp s.cfg.maxPerIp s.cfg.maxGlobal rd
    let s := { s with rl }
    match verdict with
    | .error e => pure (s, .error e)
    | .ok () =>
      match s.decryptMsg A received with
      | .error e => pure (s, .error e)
      | .ok (keyId, plaintext) => s.validateAndSend keyId plaintext srcIp

/-- listener.rs:83-86: one datagram in the loop of `run`, with the error throttle. -/
def Server.handleDatagram (A : Aead) (s : Server) (datagram : List Byte) (src : Ip) (rd : Readings) (tLog : Nat) :
    Act (Server × Except Err Unit) := do
  let (s', r) ← s.iteration A datagram src rd
  match r with
  | .error e => pure ({ s' with throttle := (s'.throttle.log tLog).2 }, .error e)
  | .ok () => pure (s', .ok ())

end Ruroco
