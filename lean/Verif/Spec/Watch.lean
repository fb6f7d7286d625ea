import Verif.Spec.Nonce

/-!
# Specification: what somebody sees who watches a client without having its key
-/

namespace Ruroco.Spec

/-- What can be seen of a step of the client: of a datagram its destination, the id of the key and the nonce, which are not encrypted, and its size; everything else entirely (the watcher also sees what the client does
with files, the pauses and the failures). -/
inductive Visible where
  | datagram (ip : Ip) (port : Nat) (keyId nonce : List Byte) (size : Nat)
  | other (e : Event)
deriving DecidableEq, Repr

def visible : Event → Visible
  | .udp ip port _ bytes => .datagram ip port (bytes.take 8) (nonceOf bytes) bytes.length
  | e => .other e

/-- The address given with `--ip` is none. -/
def IpRefused (c : SendCmd) : Prop := ∃ t, c.ip = some t ∧ parseIp t = none

/-- The two requests go the same way: to the same server, with the same choice of address families and the same pause. They may differ in the command, the address given with `--ip`, and `--permissive`. -/
structure SameWay (a b : SendCmd) : Prop where
  address : a.address = b.address
  ipv4 : a.ipv4 = b.ipv4
  ipv6 : a.ipv6 = b.ipv6
  delay : a.delayMs = b.delayMs
  refused : IpRefused a ↔ IpRefused b

/-- The two events differ in what is asked for only. -/
inductive EvSameWay : CEv → CEv → Prop
  | send (env : Env) (held : Bool) {a b : SendCmd} (senv : SendEnv) (h : SameWay a b) : EvSameWay (.send env held a senv) (.send env held b senv)
  | reseed (env : Env) (held : Bool) : EvSameWay (.reseed env held) (.reseed env held)
  | power : EvSameWay .power .power
  | others : EvSameWay .others .others

/-- A cipher that hides everything but the length: what a perfect one looks like to somebody without the key. -/
def Hides (A : Aead) : Prop := ∀ key iv p q, p.length = q.length → A.enc key iv p = A.enc key iv q

end Ruroco.Spec
