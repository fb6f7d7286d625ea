import Verif.Model.TwoServers
import Verif.Spec.Server
import Verif.Spec.Terms.Server
import Verif.Spec.Terms.Codec

/-!
# Words used in the statements of `Props/StartExact.lean`
-/

namespace Ruroco

open Spec (forwards onDisk Acceptable Seals SameHost RateOk)

/-- The first eight bytes of `dg` name the loaded key `k`, `dg` is sealed under it and says `d`, and nothing but its counter can stand against it. -/
structure FineIfNew (A : Aead) (s : Server) (now : Nat) (src : Ip) (dg : List Byte) (k : List Byte) (d : ClientData) : Prop where
  size : 94 ≤ dg.length
  names : dg.take 8 = k
  sealed : ∃ h, s.handlers.get k = some h ∧ Seals A h.key dg d
  notFuture : d.counter.toNat ≤ now + s.cfg.skewSeconds.toNat * 1000000000
  dst : d.dstIp ∈ s.cfg.ips
  src : d.strict = true → ∀ ip, d.srcIp = some ip → SameHost ip src

end Ruroco
