import Verif.Model.Joint
import Verif.Model.Run
import Verif.Spec.Commander
import Verif.Spec.IpBlocks
import Verif.Spec.Keys
import Verif.Spec.Rate
import Verif.Spec.SharedKey
import Verif.Spec.Terms.KeyLife
import Verif.Spec.Terms.Reseed

/-!
# Words used in the statements of `Props/SharedKey.lean`
-/

namespace Ruroco

open Spec (datagrams Seals Acceptable forwards message SameHost counterOnDisk records recordsWithin SharedSend setAt total SharedRequest requestsOfSend requestsOf sharedSends)

/-- A run of `send` with key `h` in which nothing goes wrong on the way: options and host are as `t` says, all addresses are among the server's `listed` ones, and a claimed address is the real one
unless `--permissive` is given. -/
structure SharedFit (listed : List Ip) (h : CryptoHandler) (t : SharedSend ι) : Prop where
  readings : ∀ r ∈ t.clock, r ≠ none
  enough : t.dsts.length + 2 ≤ t.clock.length
  some : t.dsts ≠ []
  address : ∃ full, ensurePort t.cmd.address DEFAULT_PORT = .ok full ∧ getDestinationIps t.cmd.ipv4 t.cmd.ipv6 (t.env.resolve full) = .ok t.dsts
  ip : parseIpOption t.cmd.ip = .ok t.claimed
  claim : t.claimed ≠ Option.some (.v6 0)
  key : ∃ text, t.env.keyText = Option.some text ∧ CryptoHandler.create (trim text) = .ok h
  random : ∀ i, ∃ iv, t.env.rnd i = Option.some iv ∧ iv.length = 12
  dst : ∀ a ∈ t.dsts, ∃ ip ∈ listed, SameHost a.ip ip
  src : t.cmd.permissive = false → ∀ ip, t.claimed = Option.some ip → ∀ j, SameHost ip (t.meets j).src

/-- And the server's clock has reached (up to the tolerated skew) the time `bound` when the datagrams arrive. -/
structure SharedOk (s : Server) (listed : List Ip) (h : CryptoHandler) (t : SharedSend ι) (bound : Nat) : Prop extends SharedFit listed h t where
  time : ∀ j, bound ≤ (t.meets j).now.toNat + s.cfg.skewSeconds.toNat * 1000000000

/-- What was handed to the commander: counter and message. -/
def handed (log : List Event) : List (Nat × List Byte) := (forwards log).map (fun x => (x.2.1.toNat, x.2.2))

end Ruroco
