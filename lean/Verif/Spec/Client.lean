import Verif.Model.Client

/-!
# Specification: the client's counter and what it puts on the wire
-/

namespace Ruroco.Spec

/-- Counters of the datagrams handed to the network, in order. -/
def wire (log : List Event) : List U128 :=
  log.filterMap fun e => match e with
    | .udp _ _ c _ => some c
    | _ => none

/-- The datagrams handed to the network, in order: address, port, counter, bytes. -/
def datagrams (log : List Event) : List (Ip × Nat × U128 × List Byte) :=
  log.filterMap fun e => match e with
    | .udp ip port c bytes => some (ip, port, c, bytes)
    | _ => none

/-- What the counter file at `p` says: its first 16 bytes, big endian. `none`: absent or too short. -/
def counterOnDisk (w : World) (p : Path) : Option Nat :=
  match w.fs p with
  | none => none
  | some f => if 16 ≤ f.data.length then some (ofBE (f.data.take 16)) else none

/-- The datagram `bytes` is what a client with key `h` sends for request `d`, with some nonce. -/
def IsPacket (A : Aead) (h : CryptoHandler) (d : ClientData) (bytes : List Byte) : Prop :=
  ∃ iv, encode A h (some iv) d.serialize = .ok bytes

/-- First address of a family in resolver order. -/
def firstV4 : List SockAddr → Option SockAddr
  | [] => none
  | a :: rest => match a.ip with
    | .v4 _ => some a
    | .v6 _ => firstV4 rest

def firstV6 : List SockAddr → Option SockAddr
  | [] => none
  | a :: rest => match a.ip with
    | .v4 _ => firstV6 rest
    | .v6 _ => some a

/-- The request a sender makes for destination `dst` with counter `c`. -/
def requestFor (hash : List Char → U64) (s : Sender) (dst : Ip) (c : U128) : ClientData :=
  { cmdHash := hash s.cmd.command, counter := c, strict := !s.cmd.permissive, srcIp := s.srcIp, dstIp := dst }

/-- Events of one attempt to reach `a` with counter `c`: work on files, sockets, at most one datagram, which goes to `a` and carries `c`; exactly one
if the attempt counts as successful. -/
structure Attempted (A : Aead) (hash : List Char → U64) (s : Sender) (a : SockAddr) (c : U128) (ok : Bool) (la : List Event) : Prop where
  only : ∀ e ∈ la, (∃ op p, e = .file op p) ∨ (∃ p, e = .dirSyncFailed p ∨ e = .statFailed p) ∨ e = .udpSocket ∨
    ∃ bytes, e = .udp a.ip a.port c bytes ∧ IsPacket A s.handler (requestFor hash s a.ip c) bytes
  atMostOne : (wire la).length ≤ 1
  sent : ok = true → wire la = [c]

/-- The trace of a sender that, having used counters up to `prev` and being at position `i`, tries the given destinations in order, each exactly
once, each with a larger counter, with the given results, waiting only between attempts. -/
inductive Tried (A : Aead) (hash : List Char → U64) (s : Sender) : (i prev : Nat) → List SockAddr → List Bool → List Event → Prop
  | nil (i prev : Nat) : Tried A hash s i prev [] [] []
  | cons {i prev : Nat} {a : SockAddr} {rest : List SockAddr} {ok : Bool} {results : List Bool} {c : U128} {la l : List Event}
      (hle : prev ≤ c.toNat) (hlt : wire la ≠ [] → prev < c.toNat) (ha : Attempted A hash s a c ok la)
      (h : Tried A hash s (i + 1) c.toNat rest results l) :
      Tried A hash s i prev (a :: rest) (ok :: results)
        ((if 0 < i ∧ 0 < s.cmd.delayMs then [.sleep s.cmd.delayMs] else []) ++ .sendTo a.ip a.port :: la ++
          (if ok then [] else [.sendFailed a.ip a.port]) ++ l)

end Ruroco.Spec
