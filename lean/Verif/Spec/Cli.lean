import Verif.Model.Cli
import Verif.Spec.Address

/-!
# Specification: what a command line says

Written as a grammar: how a list of options can be spelled in words. The parser reads words from left to right with an option pending; nothing of that is used here.
-/

namespace Ruroco.Spec

/-- A table of options is unambiguous. -/
def TableOk (t : List OptDef) : Prop :=
  (t.map (·.long)).Nodup ∧ (t.filterMap (·.short)).Nodup ∧ (∀ d ∈ t, d.long ≠ []) ∧ (∀ d ∈ t, '=' ∉ d.long) ∧ ∀ d ∈ t, d.short ≠ some '-'

instance (t : List OptDef) : Decidable (TableOk t) := inferInstanceAs (Decidable (_ ∧ _ ∧ _ ∧ _ ∧ _))

/-- A word that can follow an option as its value: it does not begin with a hyphen, or is a single one. -/
def PlainWord (v : List Char) : Prop := v = ['-'] ∨ v.head? ≠ some '-'

instance (v : List Char) : Decidable (PlainWord v) := inferInstanceAs (Decidable (_ ∨ _))

/-- `d` is an option of the table that takes a value, and `v` is one it accepts. -/
def TakesValue (t : List OptDef) (d : OptDef) (v : List Char) : Prop := d ∈ t ∧ ∃ accepts, d.kind = .value accepts ∧ accepts v = true

/-- Flags written as single letters, in one word. -/
inductive Letters (t : List OptDef) : Given → List Char → Prop
  | nil : Letters t [] []
  | cons {d : OptDef} {c : Char} {g : Given} {cs : List Char} : d ∈ t → d.kind = .flag → d.short = some c → Letters t g cs → Letters t ((d.long, none) :: g) (c :: cs)

/-- The ways to write options in one or two words. -/
inductive Words (t : List OptDef) : Given → List (List Char) → Prop
  /-- `--flag` -/
  | flag {d : OptDef} : d ∈ t → d.kind = .flag → Words t [(d.long, none)] ['-' :: '-' :: d.long]
  /-- `--option=value` -/
  | equals {d : OptDef} {v : List Char} : TakesValue t d v → Words t [(d.long, some v)] ['-' :: '-' :: (d.long ++ '=' :: v)]
  /-- `--option value` -/
  | next {d : OptDef} {v : List Char} : TakesValue t d v → PlainWord v → Words t [(d.long, some v)] ['-' :: '-' :: d.long, v]
  /-- `-ab` -/
  | letters {g : Given} {cs : List Char} : Letters t g cs → cs ≠ [] → Words t g ['-' :: cs]
  /-- `-abcvalue` -/
  | attached {g : Given} {cs : List Char} {d : OptDef} {c : Char} {v : List Char} : Letters t g cs → TakesValue t d v → d.short = some c → v ≠ [] → v.head? ≠ some '=' →
      Words t (g ++ [(d.long, some v)]) ['-' :: (cs ++ c :: v)]
  /-- `-abc=value` -/
  | letterEquals {g : Given} {cs : List Char} {d : OptDef} {c : Char} {v : List Char} : Letters t g cs → TakesValue t d v → d.short = some c →
      Words t (g ++ [(d.long, some v)]) ['-' :: (cs ++ c :: '=' :: v)]
  /-- `-abc value` -/
  | letterNext {g : Given} {cs : List Char} {d : OptDef} {c : Char} {v : List Char} : Letters t g cs → TakesValue t d v → d.short = some c → PlainWord v →
      Words t (g ++ [(d.long, some v)]) ['-' :: (cs ++ [c]), v]

/-- The words spell the options, in order. -/
inductive Spelled (t : List OptDef) : Given → List (List Char) → Prop
  | nil : Spelled t [] []
  | cons {h g : Given} {ws args : List (List Char)} : Words t h ws → Spelled t g args → Spelled t (h ++ g) (ws ++ args)

/-- A command line says: these options, each at most once. A last `--` says nothing. -/
def Says (t : List OptDef) (args : List (List Char)) (g : Given) : Prop :=
  (g.map (·.1)).Nodup ∧ ∃ core, Spelled t g core ∧ (args = core ∨ args = core ++ ["--".toList])

/-- A number of milliseconds: decimal digits, a `+` before them allowed, below 2^64. -/
def Milliseconds (v : List Char) (n : Nat) : Prop :=
  ∃ ds, (v = ds ∨ v = '+' :: ds) ∧ ds ≠ [] ∧ (∀ c ∈ ds, '0'.toNat ≤ c.toNat ∧ c.toNat ≤ '9'.toNat) ∧ n = decimal ds ∧ n < 2 ^ 64

/-- The option is given with this value. -/
def Gives1 (g : Given) (name : String) (v : List Char) : Prop := (name.toList, some v) ∈ g

/-- The option is not given. -/
def Lacks (g : Given) (name : String) : Prop := ∀ v, (name.toList, v) ∉ g

/-- What the options of `send` ask for. -/
structure SendMeans (g : Given) (a : SendArgs) : Prop where
  address : Gives1 g "address" a.cmd.address
  keyFile : Gives1 g "key-file" a.keyFile
  command : Gives1 g "command" a.cmd.command ∨ (Lacks g "command" ∧ a.cmd.command = "default".toList)
  permissive : a.cmd.permissive = true ↔ ("permissive".toList, none) ∈ g
  ip : ∀ t, a.cmd.ip = some t ↔ Gives1 g "ip" t
  ipv4 : a.cmd.ipv4 = true ↔ ("ipv4".toList, none) ∈ g
  ipv6 : a.cmd.ipv6 = true ↔ ("ipv6".toList, none) ∈ g
  delay : (∃ v, Gives1 g "send-delay-ms" v ∧ Milliseconds v a.cmd.delayMs) ∨ (Lacks g "send-delay-ms" ∧ a.cmd.delayMs = 50)

/-- What the options of `update` ask for. -/
structure UpdateMeans (g : Given) (a : UpdateArgs) : Prop where
  force : a.force = true ↔ ("force".toList, none) ∈ g
  version : ∀ t, a.version = some t ↔ Gives1 g "version" t
  binPath : ∀ t, a.binPath = some t ↔ Gives1 g "bin-path" t
  server : a.server = true ↔ ("server".toList, none) ∈ g

/-- What a command line of the client asks for. -/
def ClientSays (args : List (List Char)) : ClientCmd → Prop
  | .gen => ∃ rest, args = "gen".toList :: rest ∧ Says noOpts rest []
  | .wizard => ∃ rest, args = "wizard".toList :: rest ∧ Says noOpts rest []
  | .reseed => ∃ rest, args = "reseed".toList :: rest ∧ Says noOpts rest []
  | .send a => ∃ rest g, args = "send".toList :: rest ∧ Says sendOpts rest g ∧ SendMeans g a
  | .update a => ∃ rest g, args = "update".toList :: rest ∧ Says updateOpts rest g ∧ UpdateMeans g a

/-- One way to write any request of `send`. -/
def writeSend (a : SendArgs) : List (List Char) :=
  ["--address=".toList ++ a.cmd.address, "--key-file=".toList ++ a.keyFile, "--command=".toList ++ a.cmd.command, "--send-delay-ms=".toList ++ Nat.toDigits 10 a.cmd.delayMs] ++
    (if a.cmd.permissive then ["--permissive".toList] else []) ++ (if a.cmd.ipv4 then ["--ipv4".toList] else []) ++ (if a.cmd.ipv6 then ["--ipv6".toList] else []) ++
    (match a.cmd.ip with
     | some t => ["--ip=".toList ++ t]
     | none => [])

/-- The file an option names, or the default. -/
def PathMeans (g : Given) (name : String) (default : String) (p : Path) : Prop := Gives1 g name p ∨ (Lacks g name ∧ p = default.toList)

end Ruroco.Spec
