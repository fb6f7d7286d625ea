import Verif.Spec.Server
import Verif.Spec.Terms.KeyLife
import Verif.Model.History

/-! # The words used in C119: several servers that have keys in common -/

namespace Ruroco.Spec

/-- One of several machines, each with its own disk and history: the directory of the replay state, the world it began with, what happened to it, how it ended, and the addresses listed in its
settings. -/
structure Machine where
  dir : Path
  world : World
  evs : List Ev
  final : Sys
  listed : List Ip

/-- The machine went through its history from the beginning, every start of its server read the address list, and its calls failed in none of the ways that C07 excludes. -/
structure Machine.Operated (A : Aead) (m : Machine) : Prop where
  run : Run A m.dir ⟨m.world, none⟩ m.evs m.final
  fresh : forwards m.world.log = []
  ips : ∀ env cfg senv, .start env cfg senv ∈ m.evs → cfg.ips = loadIps m.listed
  stat : .statFailed (blocklistPath m.dir) ∉ m.final.w.log
  sync : .power ∈ m.evs → .dirSyncFailed (blocklistPath m.dir) ∉ m.final.w.log

/-- Every key file any start of the server on this machine found is that of the key table `K`. -/
def Machine.KeysFrom (K : List Byte → Option (List Byte)) (m : Machine) : Prop :=
  ∀ env cfg senv, .start env cfg senv ∈ m.evs → ∀ k, HasKey senv.dir k → K k.id = some k.key

/-- No host is in both lists, in whatever notation. -/
def NoCommonHost (l l' : List Ip) : Prop := ∀ a ∈ l, ∀ b ∈ l', ¬ SameHost a b

/-- The datagrams the server on this machine handed over to its commander, in order. -/
def Machine.executed (m : Machine) : List (List Byte) := (forwards m.final.w.log).map (·.1)

end Ruroco.Spec
