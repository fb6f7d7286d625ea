import Verif.Model.Joint
import Verif.Spec.Commander
import Verif.Spec.IpBlocks
import Verif.Spec.Terms.Reseed

/-!
# Words used in the statements of `Props/ReseedExact.lean`
-/

namespace Ruroco

open Spec (datagrams counterOnDisk forwards Acceptable SameHost RateOk)

/-- What the server must be like, apart from the stored counter, for a datagram of key `h` with counter `ctr`, for `dst`, from `src`, to be let in. -/
structure AdmitsIfNew (s : Server) (listed : List Ip) (h : CryptoHandler) (ctr : Nat) (dst : Ip) (strict : Bool) (claimed : Option Ip) (src : Ip) (now : Nat) : Prop where
  key : s.handlers.get h.id = some h
  ips : s.cfg.ips = loadIps listed
  dst : ∃ ip ∈ listed, SameHost dst ip
  clock : ctr ≤ now + s.cfg.skewSeconds.toNat * 1000000000
  src : strict = true → ∀ ip, claimed = some ip → SameHost ip src

end Ruroco
