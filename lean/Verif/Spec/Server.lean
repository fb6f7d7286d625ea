import Verif.Model.Server
import Verif.Spec.Ip

/-!
# Specification: which datagrams the server may act on

Written from the protocol description: byte ranges, comparisons on natural numbers, and addresses up to notation.
-/

namespace Ruroco.Spec

/-- `dg` seals the request `d` under `key`. Layout: 0-8 key id, 8-20 nonce, 20-36 tag, 36-94 ciphertext of the 58-byte
plaintext. -/
def Seals (A : Aead) (key dg : List Byte) (d : ClientData) : Prop :=
  ∃ pt, A.dec key (slice dg 8 20) (slice dg 20 36) (slice dg 36 94) = some pt ∧ pt.length = 58 ∧
    ClientData.deserialize pt = .ok d

/-- The datagram `dg`, received from `src` at wall-clock time `now` (nanoseconds), is a legitimate request `d` for server `s`. -/
structure Acceptable (A : Aead) (s : Server) (now : Nat) (src : Ip) (dg : List Byte) (d : ClientData) : Prop where
  /-- long enough -/
  size : 94 ≤ dg.length
  /-- sealed under the loaded key its first eight bytes name -/
  sealed : ∃ h, s.handlers.get (dg.take 8) = some h ∧ Seals A h.key dg d
  /-- newer than the stored counter of that key -/
  fresh : ∃ v, s.bl.map.get (dg.take 8) = some v ∧ v.toNat < d.counter.toNat
  /-- not from the future -/
  notFuture : d.counter.toNat ≤ now + s.cfg.skewSeconds.toNat * 1000000000
  /-- meant for this server -/
  dst : d.dstIp ∈ s.cfg.ips
  /-- in strict mode a claimed address is the real one, in whatever notation -/
  src : d.strict = true → ∀ ip, d.srcIp = some ip → SameHost ip src

/-- The rate limiter lets a request from `src` pass, leaving state `rl`. -/
def RateOk (s : Server) (src : Ip) (rd : Readings) (rl : RateLimiter) : Prop :=
  s.rl.check (normalizeIp src) s.cfg.maxPerIp s.cfg.maxGlobal rd = (.ok (), rl)

/-- The message for the commander that request `d` from `src` stands for. -/
def message (d : ClientData) (src : Ip) : List Byte :=
  (CommanderData.mk d.cmdHash (d.srcIp.getD src)).toBytes

/-- The commands handed to the commander, in order: datagram, its counter, bytes written. -/
def forwards (log : List Event) : List (List Byte × U128 × List Byte) :=
  log.filterMap fun e => match e with
    | .forward dg c bs => some (dg, c, bs)
    | _ => none

/-- What the replay-state file says about key `k`. -/
def onDisk (w : World) (path : Path) (k : List Byte) : Option U128 :=
  match w.fs path with
  | none => none
  | some f => (decodeBl f.data).bind (·.get k)

end Ruroco.Spec
