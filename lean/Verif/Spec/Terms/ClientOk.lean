import Verif.Model.ClientHistory
import Verif.Spec.Client
import Verif.Spec.Ip
import Verif.Spec.Terms.Always
import Verif.Spec.Terms.Server

/-!
# Words used in claims, about which there are lemmas in `Lemmas/ClientOk.lean`
-/

namespace Ruroco

open Spec (datagrams counterOnDisk requestFor)

/-- The operating system does what it is asked; at least `n` more clock readings. -/
structure Works (n : Nat) (w : World) : Prop where
  ok : AllOk w
  clock : ∀ t ∈ w.clock, t ≠ none
  length : n ≤ w.clock.length

/-- What a client needs for a send, and what the send will be: key `h`, destinations `dsts`, last counter `c` (the one on disk or, the first time,
the current time). -/
structure CanSend (dir : Path) (cmd : SendCmd) (env : SendEnv) (w : World) (h : CryptoHandler) (srcIp : Option Ip) (dsts : List SockAddr) (c : U128) :
    Prop where
  works : Works (dsts.length + 2) w
  address : ∃ full, ensurePort cmd.address DEFAULT_PORT = .ok full ∧ getDestinationIps cmd.ipv4 cmd.ipv6 (env.resolve full) = .ok dsts
  ip : parseIpOption cmd.ip = .ok srcIp
  key : ∃ text, env.keyText = some text ∧ CryptoHandler.create (trim text) = .ok h
  random : ∀ i, ∃ iv, env.rnd i = some iv ∧ iv.length = 12
  counter : counterOnDisk w (counterPath dir) = some c.toNat ∨ (w.fs (counterPath dir) = none ∧ w.clock.head? = some (some c))
  room : c.toNat + dsts.length < 2 ^ 128

end Ruroco
