import Verif.Model.Commander
import Verif.Model.Crypto
import Verif.Model.IpText

/-!
# The client: counter and sending
-/

namespace Ruroco

/-! ## Counter (/repo/src/client/counter.rs) -/

/-- counter.rs:7-11 `Counter`. -/
structure Counter where
  path : Path
  count : U128
deriving DecidableEq, Repr

/-- counter.rs:55-60 `write`. -/
def Counter.write (c : Counter) : Act Unit := writeAtomic c.path (beBytes 16 c.count.toNat)

/-- counter.rs:62-67 `read`: open and `read_exact` of 16 bytes, as one call; bytes after the first 16 are not looked at. -/
def Counter.read (path : Path) : Act U128 := do
  let data ← readFile path
  if data.length < 16 then Act.throw .parse
  else pure (BitVec.ofNat 128 (ofBE (data.take 16)))

/-- counter.rs:14-34 `create_and_init`. -/
def Counter.createAndInit (path : Path) (initial : U128) : Act Counter := do
  match ← (Counter.read path).attempt with
  | .ok count => pure ⟨path, count⟩
  | .error .notFound => do
    let c : Counter := ⟨path, initial⟩
    c.write
    pure c
  | .error e => Act.throw e

/-- counter.rs:40-49 `inc`. The object keeps the incremented value even if writing it fails; hence the pair. -/
def Counter.inc (c : Counter) : Act (Counter × Except Err Unit) := do
  if c.count.toNat + 1 < 2 ^ 128 then do
    let c' : Counter := { c with count := c.count + 1 }
    let r ← (c'.write).attempt
    pure (c', r)
  else pure (c, .error .overflow)

/-- counter.rs:51-53 `reseed`. -/
def Counter.reseed (path : Path) (value : U128) : Act Unit := Counter.write ⟨path, value⟩

/-! ## Sending (/repo/src/client/send) -/

/-- /repo/src/client/config/mod.rs `SendCommand`; the key file is part of `SendEnv`. -/
structure SendCmd where
  address : List Char
  command : List Char
  permissive : Bool
  ip : Option (List Char)
  ipv4 : Bool
  ipv6 : Bool
  delayMs : Nat
deriving DecidableEq, Repr

/-- What the environment of one send decides: the text of the key file (`none`: unreadable or not UTF-8), name resolution, and the draw of the IV
of each attempt (counted from 0). -/
structure SendEnv where
  keyText : Option (List Char)
  resolve : List Char → Option (List SockAddr)
  rnd : Nat → Option (List Byte)

/-- /repo/src/client/send/core.rs:16-21 `Sender`; `cmd.address` has a port. -/
structure Sender where
  cmd : SendCmd
  srcIp : Option Ip
  handler : CryptoHandler
  counter : Counter

/-- `get_counter_path` (core.rs:70-72) in the configuration directory. -/
def counterPath (confDir : Path) : Path := confDir ++ "/counter".toList

/-- The `--ip` option (core.rs:26-30). -/
def parseIpOption : Option (List Char) → Except Err (Option Ip)
  | none => .ok none
  | some t =>
    match parseIp t with
    | some ip => .ok (some ip)
    | none => .error .config

/-- core.rs:24-42 `Sender::create`. -/
def Sender.create (confDir : Path) (cmd : SendCmd) (env : SendEnv) : Act Sender := do
  let address ← Act.ofExcept (ensurePort cmd.address DEFAULT_PORT)
  let srcIp ← Act.ofExcept (parseIpOption cmd.ip)
  match env.keyText with
  | none => Act.throw .io
  | some key => do
    let handler ← Act.ofExcept (CryptoHandler.create (trim key))
    let now ← nowNanos
    let counter ← Counter.createAndInit (counterPath confDir) now
    pure { cmd := { cmd with address }, srcIp, handler, counter }

def Ip.isV4 : Ip → Bool
  | .v4 _ => true
  | .v6 _ => false

/-- /repo/src/client/send/network.rs:7-42 `get_destination_ips`; the arms that fail are merged into one error. -/
def getDestinationIps (ipv4 ipv6 : Bool) (resolved : Option (List SockAddr)) : Except Err (List SockAddr) :=
  match resolved with
  | none => .error .noAddress
  | some all =>
    let v4 := (all.filter (fun a => a.ip.isV4)).head?
    let v6 := (all.filter (fun a => !a.ip.isV4)).head?
    if ipv4 = ipv6 then
      match v4, v6 with
      | some a, some b => .ok [a, b]
      | some a, none => .ok [a]
      | none, some b => .ok [b]
      | none, none => .error .noAddress
    else if ipv6 then
      match v6 with
      | some b => .ok [b]
      | none => .error .noAddress
    else
      match v4 with
      | some a => .ok [a]
      | none => .error .noAddress

/-- core.rs:104-116 `get_data_to_encrypt` and /repo/src/common/protocol/client_data.rs:28-42. `hash` is `blake2b_u64`; its error paths (an impossible
output size) are left out. -/
def Sender.request (hash : List Char → U64) (s : Sender) (dst : Ip) : ClientData :=
  { cmdHash := hash s.cmd.command, counter := s.counter.count, strict := !s.cmd.permissive, srcIp := s.srcIp, dstIp := dst }

/-- network.rs:55-57: bind, connect, send. -/
def sendUdp (addr : SockAddr) (counter : U128) (bytes : List Byte) : Act Unit := do
  atomicCall .udpSocket id
  atomicCall .udpSocket id
  atomicCall (.udp addr.ip addr.port counter bytes) id

/-- network.rs:44-62 `send_data`. -/
def Sender.sendData (A : Aead) (hash : List Char → U64) (s : Sender) (addr : SockAddr) (rnd : Option (List Byte)) : Act (Sender × Except Err Unit) := do
  note (.sendTo addr.ip addr.port)
  let (counter, r) ← s.counter.inc
  let s := { s with counter }
  match r with
  | .error e => pure (s, .error e)
  | .ok () =>
    match encode A s.handler rnd (s.request hash addr.ip).serialize with
    | .error e => pure (s, .error e)
    | .ok bytes => do
      let r ← (sendUdp addr s.counter.count bytes).attempt
      pure (s, r)

/-- core.rs:89-91: the pause before every destination but the first. -/
def Sender.pause (s : Sender) (i : Nat) : Act Unit := if 0 < i ∧ 0 < s.cmd.delayMs then note (.sleep s.cmd.delayMs) else pure ()

/-- core.rs:86-98, the loop over the destinations from position `i`; returns the number of failures. -/
def Sender.sendLoop (A : Aead) (hash : List Char → U64) (rnd : Nat → Option (List Byte)) (s : Sender) (i : Nat) : List SockAddr → Act (Sender × Nat)
  | [] => pure (s, 0)
  | a :: rest => do
    s.pause i
    let (s, r) ← s.sendData A hash a (rnd i)
    match r with
    | .error _ => do
      note (.sendFailed a.ip a.port)
      let (s, n) ← s.sendLoop A hash rnd (i + 1) rest
      pure (s, n + 1)
    | .ok () => s.sendLoop A hash rnd (i + 1) rest

/-- core.rs:86-102 `send_to_destinations`. -/
def Sender.sendToDestinations (A : Aead) (hash : List Char → U64) (rnd : Nat → Option (List Byte)) (s : Sender) (dsts : List SockAddr) : Act Unit := do
  let (_, failures) ← s.sendLoop A hash rnd 0 dsts
  if dsts ≠ [] ∧ failures = dsts.length then Act.throw .notSent else pure ()

/-- core.rs:75-80 `send`. -/
def Sender.send (A : Aead) (hash : List Char → U64) (s : Sender) (env : SendEnv) : Act Unit := do
  let dsts ← Act.ofExcept (getDestinationIps s.cmd.ipv4 s.cmd.ipv6 (env.resolve s.cmd.address))
  s.sendToDestinations A hash env.rnd dsts

/-- /repo/src/client/mod.rs:22-25, 31: a `send` of the command line client; `held`: another process holds the client lock. The UI does the same with
the lock taken once (/repo/src/ui/mod.rs:25, 63). -/
def runSend (A : Aead) (hash : List Char → U64) (confDir : Path) (held : Bool) (cmd : SendCmd) (env : SendEnv) : Act Unit := do
  acquireLock (confDir ++ "/client.lock".toList) held
  let s ← Sender.create confDir cmd env
  s.send A hash env

/-- /repo/src/client/mod.rs:40-44: `reseed`. -/
def runReseed (confDir : Path) (held : Bool) : Act Unit := do
  acquireLock (confDir ++ "/client.lock".toList) held
  let now ← nowNanos
  Counter.reseed (counterPath confDir) now

end Ruroco
