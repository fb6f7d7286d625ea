import Verif.Model.ClientHistory
import Verif.Model.Run
import Verif.Spec.Client
import Verif.Spec.Commander
import Verif.Spec.Config
import Verif.Spec.Delivery
import Verif.Spec.IpBlocks
import Verif.Spec.Keys
import Verif.Spec.Rate
import Verif.Spec.Server
import Verif.Spec.Terms.Config
import Verif.Spec.Terms.EndToEnd
import Verif.Spec.Terms.KeyLife

/-!
# Words used in the statements of `Props/Installation.lean`
-/

namespace Ruroco

open Spec (Acceptable Seals RateOk forwards message IsKeyFile keyOf SameHost NonRoutable spawns commandText onDisk request commandFor lookup DistinctKeys IsCommand ServerSettings CommanderSettings)

/-- The history `evs` ends in the life time of a server started with settings `cfg` and key directory `dir`. -/
def StartedWith (evs : List Ev) (cfg : ServerCfg) (dir : Option (List DirEntry)) : Prop :=
  ∃ pre env senv mid, evs = pre ++ .start env cfg senv :: mid ∧ senv.dir = dir ∧ ∀ e ∈ mid, e.quiet

/-- How a message came to be handed over: the datagram `dg` from `src`, received at some time `now` by a server running with settings `cfg` and keys `dir`, is a legitimate request `d`. -/
structure Legitimate (A : Aead) (cfg : ServerCfg) (dir : Option (List DirEntry)) (clock : List (Option U128)) (dg : List Byte) (src : Ip) (d : ClientData) : Prop where
  size : 94 ≤ dg.length
  key : ∃ k, HasKey dir k ∧ k.id = dg.take 8 ∧ Seals A k.key dg d
  notFuture : ∃ now, some now ∈ clock ∧ d.counter.toNat ≤ now.toNat + cfg.skewSeconds.toNat * 1000000000
  dst : d.dstIp ∈ cfg.ips
  src : d.strict = true → ∀ ip, d.srcIp = some ip → SameHost ip src

/-- Why the command `cmd` may have been executed for the address `ip`. `t`: config.toml; `entries`: the table in commands.toml; `evs`: history of the server; `x`: the message that caused it. -/
def Explained (A : Aead) (hash : List Char → U64) (penv : PathEnv) (c : ConfigServer) (d : ConfigCommander) (entries : Table) (evs : List Ev) (x : List Byte × U128 × List Byte) (cmd : List Char)
    (ip : Ip) : Prop :=
  ∃ pre env dg src rd t post dir req name v seconds, evs = pre ++ .packet env dg src rd t :: post ∧ StartedWith pre (c.running penv) dir ∧
    Legitimate A (c.running penv) dir env.clock dg src req ∧ x.1 = dg.take 94 ∧ x.2.1 = req.counter ∧ (name, v) ∈ entries ∧ req.cmdHash = hash name ∧ IsCommand v cmd seconds ∧
    SameHost ip (req.srcIp.getD src) ∧ (d.allowNonRoutable = true ∨ ¬ NonRoutable ip)

/-- The connections the commander gets: the messages the server handed over, in order, each with its circumstances. -/
def Delivered (log : List Event) (circumstances : List (Bool × ChildEnv)) : List Conn :=
  List.zipWith (fun x k => Conn.stream k.1 x.2.2 k.2) (forwards log) circumstances

/-- The state file in directory `dir`, or one of its temporary siblings. -/
def IsStateFile (dir q : Path) : Prop :=
  q = dir ++ "/blocklist.msgpck".toList ∨ ∃ n : Nat, q = dir ++ "/blocklist.msgpck.".toList ++ (toString n).toList ++ ".tmp".toList

/-- What a server with state directory `dir` may be seen doing: touching its state file, connecting to the commander's socket and writing to it. -/
inductive ServerMay (dir : Path) : Event → Prop where
  | file (op : FileOp) (q : Path) (h : IsStateFile dir q) : ServerMay dir (.file op q)
  | statFailed (q : Path) (h : IsStateFile dir q) : ServerMay dir (.statFailed q)
  | dirSyncFailed (q : Path) (h : IsStateFile dir q) : ServerMay dir (.dirSyncFailed q)
  | connect : ServerMay dir .connect
  | forward (dg : List Byte) (c : U128) (bs : List Byte) : ServerMay dir (.forward dg c bs)

end Ruroco
