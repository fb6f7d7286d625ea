import Verif.Model.Programs
import Verif.Spec.Cli
import Verif.Spec.Config
import Verif.Spec.Client
import Verif.Spec.Keys

/-!
# Specification of a set-up

What the README asks for before the first request: a key from `ruroco-client gen` on both sides, a config.toml, a commands.toml, and the two programs started with them.
-/

namespace Ruroco.Spec

/-- The text `ruroco-client gen` prints for these random bytes, perhaps with white space around it. -/
def KeyText (key id : List Byte) (text : List Char) : Prop :=
  ∃ printed before after, genKey (some key) (some id) = .ok printed ∧ (∀ c ∈ before, isWs c = true) ∧ (∀ c ∈ after, isWs c = true) ∧ text = before ++ printed ++ after

/-- The directory of keys: every key file contains a key, no two the same id, and one of them is the printed one. -/
structure KeyDir (key id : List Byte) (es : List DirEntry) : Prop where
  present : ∃ f ∈ es, IsKeyFile f ∧ ∃ text, f.content = some text ∧ KeyText key id text
  good : ∀ f ∈ es, IsKeyFile f → ∃ k, keyOf f = some k
  different : es.Pairwise (fun f f' => IsKeyFile f → IsKeyFile f' → ∀ k k', keyOf f = some k → keyOf f' = some k' → k.id ≠ k'.id)
  few : es.length < 2 ^ 32

/-- The server is set up: its command line names a config.toml with the settings `c`, its keys are in place, its socket can be had, its disk works and holds no replay state yet.
`floor`: the wall clock when it starts. -/
structure ServerReady (e : ServerEnv) (args : List (List Char)) (t : Table) (c : ConfigServer) (key id : List Byte) (floor : U128) (w : World) : Prop where
  line : ∃ g p, Says serverOpts args g ∧ PathMeans g "config" "/etc/ruroco/config.toml" p ∧ e.table p = some t
  settings : ServerSettings t c
  keys : ∃ es, e.dir (c.keyDir e.paths) = some es ∧ KeyDir key id es
  limits : 1 ≤ c.maxPerIp ∧ 1 ≤ c.maxGlobal
  socket : e.socketOk c.address = true
  order : ∀ m, (e.order m).Perm m
  disk : ∀ o ∈ w.oracle, o = Choice.ok
  fresh : w.fs (blocklistPath (c.stateDir e.paths)) = none
  clock : ∃ t1 t3 cl, w.clock = some t1 :: some floor :: some t3 :: cl

/-- The commander is set up: its command line names the same config.toml and a commands.toml with these entries; its socket can be made. -/
structure CommanderReady (e : CmdrEnv) (hash : List Char → U64) (args : List (List Char)) (t : Table) (c : ConfigCommander) (entries : Table) (w : World) : Prop where
  line : ∃ g p q commands, Says commanderOpts args g ∧ PathMeans g "config" "/etc/ruroco/config.toml" p ∧ PathMeans g "commands" "/etc/ruroco/commands.toml" q ∧ e.table p = some t ∧
    e.table q = some commands ∧ DistinctKeys commands ∧ CommandsFile commands entries
  settings : CommanderSettings t c
  distinct : DistinctKeys entries ∧ ∀ name l, (name, Toml.tbl l) ∈ entries → DistinctKeys l
  hashes : ∀ x ∈ entries, ∀ y ∈ entries, hash x.1 = hash y.1 → x.1 = y.1
  free : e.held = false
  names : e.names = true
  disk : ∀ o ∈ w.oracle, o = Choice.ok

/-- In this run of a command, it ends or its time limit passes, whichever of these commands it is: the commander, looking as often as it does in `env`, sees it. -/
def CommandsEnd (entries : Table) (env : ChildEnv) : Prop :=
  ∀ name x cmd n, (name, x) ∈ entries → IsCommand x cmd n → pollLoop env.exit (deadlineOf env.startAt n) env.rounds ≠ .waiting

/-- The client is set up, and asked for `a`: the key file holds the printed key, the host has the addresses `dsts`, the claimed address (if any) is `claimed`, the counter stands at `c0`. -/
structure ClientReady (dir : Path) (e : ClientEnv) (args : List (List Char)) (a : SendArgs) (key id : List Byte) (claimed : Option Ip) (dsts : List SockAddr) (c0 : U128) (w : World) : Prop where
  line : ClientSays args (.send a)
  key : ∃ text, e.keyFile a.keyFile = some text ∧ KeyText key id text
  host : ∃ full, ensurePort a.cmd.address DEFAULT_PORT = .ok full ∧ getDestinationIps a.cmd.ipv4 a.cmd.ipv6 (e.resolve full) = .ok dsts
  claims : match a.cmd.ip with
    | none => claimed = none
    | some text => ∃ ip, parseIp text = some ip ∧ ip ≠ .v6 0 ∧ claimed = some ip
  free : e.held = false
  random : ∀ i, ∃ iv, e.rnd i = some iv ∧ iv.length = 12
  disk : ∀ o ∈ w.oracle, o = Choice.ok
  clock : (∀ t ∈ w.clock, t ≠ none) ∧ dsts.length + 2 ≤ w.clock.length
  counter : counterOnDisk w (counterPath dir) = some c0.toNat ∨ (w.fs (counterPath dir) = none ∧ w.clock.head? = some (some c0))
  room : c0.toNat + dsts.length < 2 ^ 128

end Ruroco.Spec
