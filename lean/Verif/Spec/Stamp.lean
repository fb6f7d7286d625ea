import Verif.Model.ClientHistory
import Verif.Spec.Client

/-!
# Specification: a numbering stamp

What the client is, seen from outside: a stamp that puts the next number on every datagram. There are no files, buffers or system calls here, only what the stamp shows and what a power loss may
turn it back to.
-/

namespace Ruroco.Spec

/-- What a stamp shows. -/
inductive Reading where
  /-- it has never been used -/
  | nothing
  | illegible
  | number (n : Nat)
deriving DecidableEq

/-- What a counter file says: the number in its first 16 bytes, big endian. -/
def reading : Option File → Reading
  | none => .nothing
  | some f => if 16 ≤ f.data.length then .number (ofBE (f.data.take 16)) else .illegible

/-- The stamp; `back`: what a power loss may turn it back to. -/
structure Stamp where
  shows : Reading
  back : List Reading

/-- What the stamp shows or may be turned back to. -/
def Stamp.all (s : Stamp) : List Reading := s.shows :: s.back

/-- What goes out: address, port, number, datagram. -/
abbrev Sent := List (Ip × Nat × U128 × List Byte)

/-- What a send is about: the key, the address claimed, the destinations. -/
structure Letter where
  key : CryptoHandler
  claimed : Option Ip
  dsts : List SockAddr

/-- The user's request `cmd` can be understood, and is about `l`. -/
structure Means (cmd : SendCmd) (senv : SendEnv) (l : Letter) : Prop where
  host : ∃ full, ensurePort cmd.address DEFAULT_PORT = .ok full ∧ getDestinationIps cmd.ipv4 cmd.ipv6 (senv.resolve full) = .ok l.dsts
  claimed : parseIpOption cmd.ip = .ok l.claimed
  key : ∃ text, senv.keyText = some text ∧ CryptoHandler.create (trim text) = .ok l.key

/-- The request with number `n` to `dst`. -/
def asks (hash : List Char → U64) (cmd : SendCmd) (l : Letter) (dst : Ip) (n : Nat) : ClientData :=
  { cmdHash := hash cmd.command, counter := BitVec.ofNat 128 n, strict := !cmd.permissive, srcIp := l.claimed, dstIp := dst }

/-- Stamping for one destination after the other, beginning after number `n`. It may end at any point. A number may be wasted; then the stamp shows it, or what it showed before. A datagram goes out
only with the number that the stamp shows by then, even after a power loss. -/
inductive Stamps (A : Aead) (key : CryptoHandler) (ask : Ip → Nat → ClientData) : Stamp → Nat → List SockAddr → Sent → Stamp → Prop
  | stop (s : Stamp) (n : Nat) (dsts : List SockAddr) : Stamps A key ask s n dsts [] s
  | full (s s' : Stamp) (n : Nat) (a : SockAddr) (dsts : List SockAddr) (out : Sent) (hn : 2 ^ 128 ≤ n + 1) (h : Stamps A key ask s n dsts out s') : Stamps A key ask s n (a :: dsts) out s'
  | wasted (s s1 s' : Stamp) (n : Nat) (a : SockAddr) (dsts : List SockAddr) (out : Sent) (hn : n + 1 < 2 ^ 128) (h1 : ∀ x ∈ s1.all, x ∈ s.all ∨ x = .number (n + 1))
      (h : Stamps A key ask s1 (n + 1) dsts out s') : Stamps A key ask s n (a :: dsts) out s'
  | sent (s s' : Stamp) (n : Nat) (a : SockAddr) (dsts : List SockAddr) (out : Sent) (bytes : List Byte) (hn : n + 1 < 2 ^ 128) (hb : IsPacket A key (ask a.ip (n + 1)) bytes)
      (h : Stamps A key ask ⟨.number (n + 1), []⟩ (n + 1) dsts out s') : Stamps A key ask s n (a :: dsts) ((a.ip, a.port, BitVec.ofNat 128 (n + 1), bytes) :: out) s'

/-- Something goes wrong around the client: a system call fails or the process is killed in it, or the clock cannot be read (four times are enough). -/
def ClientTrouble (env : Env) : Prop := (∃ c ∈ env.oracle, c ≠ .ok) ∨ none ∈ env.clock ∨ env.clock.length < 4

/-- No random numbers to be had. -/
def NoRandom (senv : SendEnv) : Prop := ∃ i, ∀ iv, senv.rnd i = some iv → iv.length ≠ 12

/-- One event at the stamp. -/
inductive StampStep (A : Aead) (hash : List Char → U64) : Stamp → CEv → Sent → Stamp → Prop
  /-- nothing is sent, for one of these reasons; a stamp never used may have been set to the time -/
  | unsent (s s' : Stamp) (env : Env) (held : Bool) (cmd : SendCmd) (senv : SendEnv) (why : held = true ∨ (¬ ∃ l, Means cmd senv l) ∨ s.shows = .illegible ∨ ClientTrouble env)
      (h : ∀ x ∈ s'.all, x ∈ s.all ∨ (s.shows = .nothing ∧ ∃ t, some t ∈ env.clock ∧ x = .number t.toNat)) : StampStep A hash s (.send env held cmd senv) [] s'
  /-- datagrams are stamped, beginning after what the stamp shows, or after the time if it was never used; without trouble, one for every destination -/
  | sends (s s1 s' : Stamp) (env : Env) (cmd : SendCmd) (senv : SendEnv) (l : Letter) (n : Nat) (out : Sent) (hm : Means cmd senv l)
      (hn : (s.shows = .number n ∧ s1 = s) ∨ (s.shows = .nothing ∧ s1 = ⟨.number n, []⟩ ∧ ∃ t : U128, env.clock.head? = some (some t) ∧ n = t.toNat))
      (h : Stamps A l.key (asks hash cmd l) s1 n l.dsts out s') (hall : ¬ ClientTrouble env → ¬ NoRandom senv → n + l.dsts.length < 2 ^ 128 → out.length = l.dsts.length) :
      StampStep A hash s (.send env false cmd senv) out s'
  /-- the stamp is set to the time -/
  | set (s : Stamp) (env : Env) (t : U128) (ht : env.clock.head? = some (some t)) : StampStep A hash s (.reseed env false) [] ⟨.number t.toNat, []⟩
  | notSet (s s' : Stamp) (env : Env) (held : Bool) (why : held = true ∨ ClientTrouble env)
      (h : ∀ x ∈ s'.all, x ∈ s.all ∨ ∃ t, some t ∈ env.clock ∧ x = .number t.toNat) : StampStep A hash s (.reseed env held) [] s'
  | power (s : Stamp) (x : Reading) (h : x ∈ s.all) : StampStep A hash s .power [] ⟨x, []⟩
  | others (s : Stamp) : StampStep A hash s .others [] s

/-- A sequence of events at the stamp, and what goes out. -/
inductive StampRun (A : Aead) (hash : List Char → U64) : Stamp → List CEv → Sent → Stamp → Prop
  | nil (s : Stamp) : StampRun A hash s [] [] s
  | snoc {s s' s'' : Stamp} {evs : List CEv} {e : CEv} {out out' : Sent} : StampRun A hash s evs out s' → StampStep A hash s' e out' s'' → StampRun A hash s (evs ++ [e]) (out ++ out') s''

end Ruroco.Spec
