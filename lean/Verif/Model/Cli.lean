import Verif.Model.Client
import Verif.Model.Crypto
import Verif.Model.UpdateCli
import Verif.Model.Wizard

/-!
# The command lines

The programs declare their options with clap's derive macros (`clap = "=4.6.1"`); the parsing itself is clap's. Modelled here is clap's documented behaviour for the kinds of options these programs
declare: flags, options with one value, no positional arguments, no overriding. Arguments are texts (an argument that is not UTF-8 is refused by clap wherever a text is expected). Which message a refused
command line leads to is left out.
-/

namespace Ruroco

/-- Why no command is run. -/
inductive Stop where
  /-- help was asked for -/
  | help
  /-- the version was asked for -/
  | version
  /-- the command line is not understood (exit status 2) -/
  | usage
deriving DecidableEq, Repr

/-- What an option is. -/
inductive OptKind where
  /-- a `bool` field: present or not -/
  | flag
  /-- a field with a value; which values its type accepts -/
  | value (accepts : List Char → Bool)
  /-- `--help`, `--version` -/
  | stop (s : Stop)

/-- One option. -/
structure OptDef where
  long : List Char
  short : Option Char
  kind : OptKind

/-- The options found, by their long names, in order. -/
abbrev Given := List (List Char × Option (List Char))

def byLong (t : List OptDef) (n : List Char) : Option OptDef := t.find? (fun d => d.long == n)

def byShort (t : List OptDef) (c : Char) : Option OptDef := t.find? (fun d => d.short == some c)

/-- An option that was given before is refused ("cannot be used multiple times"). -/
def Given.push (g : Given) (n : List Char) (v : Option (List Char)) : Except Stop Given :=
  if g.any (fun x => x.1 == n) then .error .usage else .ok (g ++ [(n, v)])

/-- A value for an option: the value parser of its type decides. -/
def Given.pushValue (g : Given) (d : OptDef) (v : List Char) : Except Stop Given :=
  match d.kind with
  | .value accepts => if accepts v then g.push d.long (some v) else .error .usage
  | _ => .error .usage

/-- The name and, after the first `=`, the value. -/
def splitEq (a : List Char) : List Char × Option (List Char) :=
  match a.dropWhile (fun c => c != '=') with
  | [] => (a.takeWhile (fun c => c != '='), none)
  | _ :: v => (a.takeWhile (fun c => c != '='), some v)

/-- `--name` or `--name=value` (`a` is what follows the two hyphens): the options found, and the option that waits for its value. -/
def parseLong (t : List OptDef) (g : Given) (a : List Char) : Except Stop (Given × Option OptDef) :=
  match byLong t (splitEq a).1 with
  | none => .error .usage
  | some d =>
    match d.kind, (splitEq a).2 with
    | .stop s, none => .error s
    | .stop _, some _ => .error .usage
    | .flag, none => (g.push d.long none).map (·, none)
    | .flag, some _ => .error .usage
    | .value _, some v => (g.pushValue d v).map (·, none)
    | .value _, none => .ok (g, some d)

/-- `-abc` (without the hyphen): flags, then possibly an option with its value attached, `-cVALUE` or `-c=VALUE`. -/
def parseShort (t : List OptDef) (g : Given) : List Char → Except Stop (Given × Option OptDef)
  | [] => .ok (g, none)
  | c :: cs =>
    match byShort t c with
    | none => .error .usage
    | some d =>
      match d.kind with
      | .stop s => .error s
      | .flag =>
        match g.push d.long none with
        | .error e => .error e
        | .ok g' => parseShort t g' cs
      | .value _ =>
        match cs with
        | [] => .ok (g, some d)
        | '=' :: v => (g.pushValue d v).map (·, none)
        | v => (g.pushValue d v).map (·, none)

/-- The arguments. `p`: the option that waits for its value. An argument that begins with a hyphen, other than a single one, is never a value; `--` ends the options. -/
def parseArgs (t : List OptDef) (g : Given) : Option OptDef → List (List Char) → Except Stop Given
  | none, [] => .ok g
  | some _, [] => .error .usage
  | p, a :: rest =>
    match a with
    | ['-', '-'] => if p.isNone ∧ rest = [] then .ok g else .error .usage
    | '-' :: '-' :: name =>
      if p.isSome then .error .usage
      else
        match parseLong t g name with
        | .error e => .error e
        | .ok (g', p') => parseArgs t g' p' rest
    | '-' :: c :: cs =>
      if p.isSome then .error .usage
      else
        match parseShort t g (c :: cs) with
        | .error e => .error e
        | .ok (g', p') => parseArgs t g' p' rest
    | v =>
      match p with
      | none => .error .usage
      | some d =>
        match g.pushValue d v with
        | .error e => .error e
        | .ok g' => parseArgs t g' none rest

/-- The value of an option. -/
def Given.value (g : Given) (n : List Char) : Option (List Char) := (g.lookup n).join

/-- Whether a flag is given. -/
def Given.has (g : Given) (n : List Char) : Bool := (g.lookup n).isSome

/-! ## Types of values -/

/-- `String`: every text. -/
def anyText (_ : List Char) : Bool := true

/-- `PathBuf`: not the empty text. -/
def someText (v : List Char) : Bool := !v.isEmpty

/-! ## The client (/repo/src/client/config) -/

/-- `-h`, `--help` (every command has it). -/
def helpOpt : OptDef := ⟨"help".toList, some 'h', .stop .help⟩

/-- `-V`, `--version` (`#[command(version)]`). -/
def versionOpt : OptDef := ⟨"version".toList, some 'V', .stop .version⟩

/-- /repo/src/client/config/commands.rs:11-42 `SendCommand`, the options. -/
def sendOpts : List OptDef :=
  [⟨"address".toList, some 'a', .value anyText⟩, ⟨"key-file".toList, some 'k', .value someText⟩, ⟨"command".toList, some 'c', .value anyText⟩, ⟨"permissive".toList, some 'e', .flag⟩,
   ⟨"ip".toList, some 'i', .value anyText⟩, ⟨"ipv4".toList, some '4', .flag⟩, ⟨"ipv6".toList, some '6', .flag⟩, ⟨"send-delay-ms".toList, some 'd', .value (fun v => (parseU64 v).isSome)⟩, helpOpt]

/-- commands.rs:44-58 `UpdateCommand`, the options. -/
def updateOpts : List OptDef :=
  [⟨"force".toList, some 'f', .flag⟩, ⟨"version".toList, some 'v', .value anyText⟩, ⟨"bin-path".toList, some 'b', .value someText⟩, ⟨"server".toList, some 's', .flag⟩, helpOpt]

/-- commands.rs:5-9, 60-61 `GenCommand`, `ReseedCommand`, `WizardCommand`. -/
def noOpts : List OptDef := [helpOpt]

/-- commands.rs:11-42 `SendCommand`: the command, and the path of the key file. -/
structure SendArgs where
  cmd : SendCmd
  keyFile : Path

/-- commands.rs:11-42: the fields from the options; an address and a key file are required, `default_value` for the others. -/
def sendArgs (g : Given) : Except Stop SendArgs :=
  match g.value "address".toList, g.value "key-file".toList with
  | some address, some keyFile =>
    .ok { cmd := { address, command := (g.value "command".toList).getD "default".toList, permissive := g.has "permissive".toList, ip := g.value "ip".toList, ipv4 := g.has "ipv4".toList,
                   ipv6 := g.has "ipv6".toList, delayMs := ((g.value "send-delay-ms".toList).bind parseU64).getD 50 }
          keyFile }
  | _, _ => .error .usage

/-- commands.rs:44-58 -/
def updateArgs (g : Given) : UpdateArgs :=
  { force := g.has "force".toList, version := g.value "version".toList, binPath := g.value "bin-path".toList, server := g.has "server".toList }

/-- /repo/src/client/config/mod.rs:22-34 `CommandsClient`. -/
inductive ClientCmd where
  | gen
  | send (a : SendArgs)
  | update (a : UpdateArgs)
  | wizard
  | reseed

/-- config/mod.rs:15-34 `CliClient`: a subcommand is required; `help` is one that clap adds (what follows it is left out). -/
def parseClient : List (List Char) → Except Stop ClientCmd
  | [] => .error .usage
  | a :: rest =>
    if a = "gen".toList then (parseArgs noOpts [] none rest).map (fun _ => .gen)
    else if a = "send".toList then
      match parseArgs sendOpts [] none rest with
      | .error e => .error e
      | .ok g => (sendArgs g).map .send
    else if a = "update".toList then (parseArgs updateOpts [] none rest).map (fun g => .update (updateArgs g))
    else if a = "wizard".toList then (parseArgs noOpts [] none rest).map (fun _ => .wizard)
    else if a = "reseed".toList then (parseArgs noOpts [] none rest).map (fun _ => .reseed)
    else if a = "help".toList then .error .help
    else
      match parseArgs [helpOpt, versionOpt] [] none [a] with
      | .error e => .error e
      | .ok _ => .error .usage

/-- What surrounds a run of the client. -/
structure ClientEnv where
  /-- another process holds the client lock -/
  held : Bool
  /-- the text of the file at a path (`none`: unreadable or not UTF-8) -/
  keyFile : Path → Option (List Char)
  resolve : List Char → Option (List SockAddr)
  rnd : Nat → Option (List Byte)
  dirs : DirEnv
  update : UpdEnv
  wizard : WizEnv

/-- /repo/src/client/mod.rs:22-46 `run_client` in the configuration directory `dir`; `gen` writes no file (gen.rs:11-15). -/
def runClient (A : Aead) (hash : List Char → U64) (dir : Path) (e : ClientEnv) : ClientCmd → Act Unit
  | .gen => acquireLock (dir ++ "/client.lock".toList) e.held
  | .send a => runSend A hash dir e.held a.cmd { keyText := e.keyFile a.keyFile, resolve := e.resolve, rnd := e.rnd }
  | .update a => runUpdate dir e.held e.dirs a e.update
  | .wizard => runWizard dir e.held e.wizard
  | .reseed => runReseed dir e.held

/-- /repo/src/bin/client.rs: `CliClient::parse()` ends the process unless the command line is understood. -/
def clientMain (A : Aead) (hash : List Char → U64) (dir : Path) (e : ClientEnv) (args : List (List Char)) (w : World) : Except Stop (Out Unit) × World :=
  match parseClient args with
  | .error s => (.error s, w)
  | .ok c => (.ok (runClient A hash dir e c w).1, (runClient A hash dir e c w).2)

/-! ## The server and the commander -/

/-- /repo/src/server/config.rs:18-23 `CliServer`. -/
def serverOpts : List OptDef := [⟨"config".toList, some 'c', .value someText⟩, helpOpt, versionOpt]

/-- /repo/src/commander/config.rs:25-32 `CliCommander`. -/
def commanderOpts : List OptDef := [⟨"config".toList, some 'c', .value someText⟩, ⟨"commands".toList, none, .value someText⟩, helpOpt, versionOpt]

/-- The path of the server's configuration. -/
def parseServer (args : List (List Char)) : Except Stop Path :=
  (parseArgs serverOpts [] none args).map (fun g => (g.value "config".toList).getD "/etc/ruroco/config.toml".toList)

/-- The paths of the commander's two files. -/
def parseCommander (args : List (List Char)) : Except Stop (Path × Path) :=
  (parseArgs commanderOpts [] none args).map (fun g =>
    ((g.value "config".toList).getD "/etc/ruroco/config.toml".toList, (g.value "commands".toList).getD "/etc/ruroco/commands.toml".toList))

end Ruroco
