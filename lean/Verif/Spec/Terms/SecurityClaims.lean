import Verif.Model.ClientHistory
import Verif.Model.Run
import Verif.Spec.Client
import Verif.Spec.Commander
import Verif.Spec.Delivery
import Verif.Spec.IpBlocks
import Verif.Spec.Keys
import Verif.Spec.Rate
import Verif.Spec.Server
import Verif.Spec.Terms.EndToEnd
import Verif.Spec.Terms.KeyLife

/-!
# Words used in the statements of `Props/SecurityClaims.lean`
-/

namespace Ruroco

open Spec (Acceptable Seals RateOk forwards message IsKeyFile keyOf SameHost spawns commandText onDisk request)

/-- A datagram that a client holding `k` may send: sealed under `k`, for an address of the server, not from the future, with its real source if it insists on that. -/
structure Proper (A : Aead) (cfg : ServerCfg) (k : CryptoHandler) (now : Nat) (src : Ip) (dg : List Byte) (d : ClientData) : Prop where
  size : 94 ≤ dg.length
  id : dg.take 8 = k.id
  sealed : Seals A k.key dg d
  notFuture : d.counter.toNat ≤ now + cfg.skewSeconds.toNat * 1000000000
  dst : d.dstIp ∈ cfg.ips
  src : d.strict = true → ∀ ip, d.srcIp = some ip → SameHost ip src

end Ruroco
