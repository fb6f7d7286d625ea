import Verif.Model.ClientHistory
import Verif.Spec.Client
import Verif.Spec.Commander
import Verif.Spec.IpBlocks
import Verif.Spec.Server
import Verif.Spec.Terms.ClientOk
import Verif.Spec.Terms.Commander
import Verif.Spec.Terms.ClientHistory
import Verif.Spec.Terms.Codec

/-!
# Words used in the statements of `Props/EndToEnd.lean`
-/

namespace Ruroco

open Spec (datagrams requestFor Seals Acceptable RateOk forwards message SameHost NonRoutable spawns commandFor commandText timeLimit counterOnDisk)

/-- What the server must be like for a datagram with counter `ctr`, for destination `dst`, from `src` (claimed: `claimed`), to be let in. `listed`:
the addresses in its configuration. -/
structure Admits (s : Server) (listed : List Ip) (h : CryptoHandler) (ctr : Nat) (dst : Ip) (strict : Bool) (claimed : Option Ip) (src : Ip) (now : Nat) : Prop where
  key : s.handlers.get h.id = some h
  ips : s.cfg.ips = loadIps listed
  dst : ∃ ip ∈ listed, SameHost dst ip
  counter : ∃ v, s.bl.map.get h.id = some v ∧ v.toNat < ctr
  clock : ctr ≤ now + s.cfg.skewSeconds.toNat * 1000000000
  src : strict = true → ∀ ip, claimed = some ip → SameHost ip src

/-- What the commander must be like to run command `name`, configured as `v`, for `ip`. -/
structure Executes (c : Commander) (hash : List Char → U64) (commands : List (List Char × CommandValue)) (name : List Char) (v : CommandValue) (ip : Ip) :
    Prop where
  table : c.cmds = getHashToCmd hash commands
  configured : (name, v) ∈ commands
  names : (commands.map Prod.fst).Nodup
  collisionFree : ∀ e ∈ commands, ∀ e' ∈ commands, hash e.1 = hash e'.1 → e.1 = e'.1
  allowed : c.allowNonRoutable = true ∨ ¬ NonRoutable ip

end Ruroco
