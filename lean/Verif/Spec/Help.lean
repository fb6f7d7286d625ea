import Verif.Model.Cli

/-! # Specification: the options as the README lists them -/

namespace Ruroco.Spec

/-- What an option of the help text does: it is a switch, it takes a value, it prints the help or the version. -/
inductive Does where
  | switch
  | value
  | help
  | version

/-- A line of the help text: letter, name, what it does. -/
structure HelpLine where
  letter : Char
  name : List Char
  does : Does

/-- /repo/README.md:189-190 (`gen`; also `wizard` and `reseed`). -/
def helpPlain : List HelpLine := [⟨'h', "help".toList, .help⟩]

/-- /repo/README.md:205-214. -/
def helpSend : List HelpLine :=
  [⟨'a', "address".toList, .value⟩, ⟨'k', "key-file".toList, .value⟩, ⟨'c', "command".toList, .value⟩, ⟨'e', "permissive".toList, .switch⟩, ⟨'i', "ip".toList, .value⟩, ⟨'4', "ipv4".toList, .switch⟩,
   ⟨'6', "ipv6".toList, .switch⟩, ⟨'d', "send-delay-ms".toList, .value⟩, ⟨'h', "help".toList, .help⟩]

/-- /repo/README.md:236-241. -/
def helpUpdate : List HelpLine :=
  [⟨'f', "force".toList, .switch⟩, ⟨'v', "version".toList, .value⟩, ⟨'b', "bin-path".toList, .value⟩, ⟨'s', "server".toList, .switch⟩, ⟨'h', "help".toList, .help⟩]

/-- /repo/README.md:286-289 (server) and 301-304 (commander). -/
def helpService : List HelpLine := [⟨'c', "config".toList, .value⟩, ⟨'h', "help".toList, .help⟩, ⟨'V', "version".toList, .version⟩]

/-- The option is one that does this. -/
def Does.agrees : Does → OptKind → Prop
  | .switch, .flag => True
  | .value, .value _ => True
  | .help, .stop s => s = .help
  | .version, .stop s => s = .version
  | _, _ => False

/-- The table has the options of the help text: each line's letter and name lead to the same option, which does what the line says. -/
def Documented (t : List OptDef) (help : List HelpLine) : Prop := ∀ l ∈ help, ∃ d, byShort t l.letter = some d ∧ byLong t l.name = some d ∧ l.does.agrees d.kind

/-- The table has exactly the options of the help text, and no other. -/
def AsDocumented (t : List OptDef) (help : List HelpLine) : Prop :=
  Documented t help ∧ ∀ d ∈ t, ∃ l ∈ help, d.long = l.name ∧ d.short = some l.letter

end Ruroco.Spec
