import Verif.Model.Client
import Verif.Model.History

/-!
# The graphical client: saved commands, their text form, their execution

Drawing, layout and clicks (egui) are not modelled: each click is an action of `UiAction`.
-/

namespace Ruroco

/-! ## Text of a command (/repo/src/ui/command_data.rs) -/

/-- command_data.rs:3-13 `CommandData`; `name` is not stored on disk. -/
structure CommandData where
  address : List Char
  command : List Char
  permissive : Bool
  ip : List Char
  ipv4 : Bool
  ipv6 : Bool
  name : List Char
deriving DecidableEq, Repr

/-- `str::trim_end`. -/
def trimEnd (t : List Char) : List Char := (t.reverse.dropWhile isWs).reverse

/-- One `if !value.trim().is_empty() { … }` block of `data_to_command`. -/
def optText (flag : List Char) (value : List Char) : List Char := if trim value = [] then [] else flag ++ ' ' :: value ++ [' ']

def flagText (flag : List Char) (b : Bool) : List Char := if b then flag ++ [' '] else []

/-- command_data.rs:15-47 `data_to_command`. -/
def dataToCommand (d : CommandData) : List Char :=
  trimEnd ("send ".toList ++ optText "--address".toList d.address ++ optText "--command".toList d.command ++ optText "--ip".toList d.ip ++
    flagText "--ipv4".toList d.ipv4 ++ flagText "--ipv6".toList d.ipv6 ++ flagText "--permissive".toList d.permissive)

/-- `str::split(p)`: the pieces between the characters satisfying `p`. -/
def splitChars (p : Char → Bool) : List Char → List (List Char)
  | [] => [[]]
  | c :: cs =>
    if p c then [] :: splitChars p cs
    else
      match splitChars p cs with
      | [] => [[c]]
      | h :: t => (c :: h) :: t

/-- `str::split_whitespace`: the non-empty pieces. -/
def splitWs (t : List Char) : List (List Char) := (splitChars isWs t).filter (· ≠ [])

/-- command_data.rs:93-104 `add_command_name`. -/
def addCommandName (d : CommandData) : CommandData :=
  { d with name := d.command ++ '@' :: d.address ++ (if d.permissive then " permissive".toList else []) ++ (if d.ipv4 then " ipv4".toList else []) ++
      (if d.ipv6 then " ipv6".toList else []) }

/-- The arms of the `match` in `command_to_data`. -/
inductive Word where
  | address | command | ip | ipv4 | ipv6 | permissive | other
deriving DecidableEq, Repr

def wordKind (t : List Char) : Word :=
  if t = "--address".toList then .address
  else if t = "--command".toList then .command
  else if t = "--ip".toList then .ip
  else if t = "--ipv4".toList then .ipv4
  else if t = "--ipv6".toList then .ipv6
  else if t = "--permissive".toList then .permissive
  else .other

/-- The arms without a value; an option without a value does nothing. -/
def setFlag (d : CommandData) : Word → CommandData
  | .ipv4 => { d with ipv4 := true }
  | .ipv6 => { d with ipv6 := true }
  | .permissive => { d with permissive := true }
  | _ => d

/-- command_data.rs:57-80: the loop of `command_to_data` over the words, `d` holds the values so far. -/
def parseWords (d : CommandData) : List (List Char) → CommandData
  | [] => d
  | [t] => setFlag d (wordKind t)
  | t :: v :: rest =>
    match wordKind t with
    | .address => parseWords { d with address := v } rest
    | .command => parseWords { d with command := v } rest
    | .ip => parseWords { d with ip := v } rest
    | k => parseWords (setFlag d k) (v :: rest)

/-- command_data.rs:49-91 `command_to_data`. -/
def commandToData (t : List Char) : CommandData := addCommandName (parseWords ⟨[], [], false, [], false, false, []⟩ (splitWs t))

/-! ## The list of saved commands (/repo/src/ui/saved_command_list.rs) -/

/-- Comparison of line 85: `(&a.command, &a.address).cmp(&(&b.command, &b.address))` is not `Greater`. Rust compares strings by their UTF-8 bytes, which is
the order of the code points. -/
def cmdLe (a b : CommandData) : Bool := decide (a.command < b.command) || (decide (a.command = b.command) && decide (a.address ≤ b.address))

/-- Insertion in front of the first element that is not smaller. -/
def insertCmd (c : CommandData) : List CommandData → List CommandData
  | [] => [c]
  | e :: l => if cmdLe c e then c :: e :: l else e :: insertCmd c l

/-- Lines 84-86 `sort`: `sort_by` is a stable sort, so its result is determined; here as an insertion sort. -/
def sortCmds : List CommandData → List CommandData
  | [] => []
  | c :: l => insertCmd c (sortCmds l)

/-- Lines 16-26, `Display`: one line per command. -/
def showList : List CommandData → List Char
  | [] => []
  | [c] => dataToCommand c
  | c :: l => dataToCommand c ++ '\n' :: showList l

/-- `toml::to_string` (`none`: error) and `toml::from_str` for the present (`dec`) and the legacy format; external code. Bytes that are not UTF-8 are read as the empty text
(line 89), which parses as neither; here both decoders return `none` for them. -/
structure ListCodec where
  enc : List CommandData → Option (List Byte)
  dec : List Byte → Option (List CommandData)
  legacy : List Byte → Option (List (List Char))

/-- Lines 29-61 `create`, given the path of the file; and line 88-90. An unreadable file counts as empty, and an empty or unparseable file as an empty list. -/
def loadCommands (C : ListCodec) (path : Path) : Act (List CommandData) := do
  let raw ← (readFile path).attempt
  let l := match raw with
    | .error _ => []
    | .ok b =>
      match C.dec b with
      | some l => l
      | none =>
        match C.legacy b with
        | some ts => ts.map commandToData
        | none => []
  pure (sortCmds (l.map addCommandName))

/-- Lines 92-102 `save`; failures are only logged. -/
def saveCommands (C : ListCodec) (path : Path) (l : List CommandData) : Act Unit := do
  match C.enc l with
  | none => pure ()
  | some b => do
    let _ ← (writeAtomic path b).attempt
    pure ()

/-- Lines 67-71 `add`. -/
def addCommand (C : ListCodec) (path : Path) (l : List CommandData) (c : CommandData) : Act (List CommandData) := do
  let l := sortCmds (l ++ [c])
  saveCommands C path l
  pure l

/-- Lines 73-77 `set`. -/
def setCommands (C : ListCodec) (path : Path) (l : List CommandData) : Act (List CommandData) := do
  let l := sortCmds l
  saveCommands C path l
  pure l

/-- Lines 79-82 `remove`. -/
def removeCommand (C : ListCodec) (path : Path) (l : List CommandData) (c : CommandData) : Act (List CommandData) := do
  let l := l.filter (fun x => decide (x ≠ c))
  saveCommands C path l
  pure l

/-- A `\r` before the `\n` belongs to the line end. -/
def stripCr (t : List Char) : List Char := if t.getLast? = some '\r' then t.dropLast else t

/-- Lines, from the pieces between `\n`: the last one has no line end and is dropped if empty. -/
def linesOf : List (List Char) → List (List Char)
  | [] => []
  | [last] => if last = [] then [] else [last]
  | t :: rest => stripCr t :: linesOf rest

/-- `str::lines`. -/
def textLines (t : List Char) : List (List Char) := linesOf (splitChars (· == '\n') t)

/-- /repo/src/ui/tabs/dashboard_config.rs:34-39: the commands of the edited text. -/
def parseConfig (t : List Char) : List CommandData := ((textLines t).filter (fun l => decide (trim l ≠ []))).map commandToData

/-! ## Executing a command (/repo/src/ui/tabs/execute.rs) -/

/-- Name of the temporary file, crate `tempfile`: `.tmp` and random characters. -/
def tempKeyPath (dir : Path) (draw : List Char) : Path := dir ++ "/.tmp".toList ++ draw

/-- `NamedTempFile::new_in`: creates a file that did not exist (`O_EXCL`) with mode `0600 & !umask`; for a name that exists, another one is drawn. `draws` are the draws; the crate gives
up after very many. -/
def newTempFile (dir : Path) : List (List Char) → Act Path
  | [] => Act.throw .io
  | d :: ds => do
    match ← peek (tempKeyPath dir d) with
    | some _ => newTempFile dir ds
    | none => do
      atomicCall (.file .openTrunc (tempKeyPath dir d)) (fun w => w.setEntry (tempKeyPath dir d) (some ⟨[], 0o600 - (0o600 &&& w.umask), false, .creator⟩))
      pure (tempKeyPath dir d)

/-- UTF-8, external code. -/
structure TextCodec where
  enc : List Char → List Byte
  dec : List Byte → Option (List Char)

/-- What the surroundings of one execution decide. -/
structure ExecEnv where
  /-- `get_conf_dir` succeeds -/
  hasConfDir : Bool
  draws : List (List Char)
  resolve : List Char → Option (List SockAddr)
  rnd : Nat → Option (List Byte)

/-- execute.rs:72-87: the request of a saved command. The delay is the default (/repo/src/client/config/commands.rs:72). -/
def CommandData.toSend (c : CommandData) : SendCmd :=
  { address := c.address, command := c.command, permissive := c.permissive, ip := if trim c.ip = [] then none else some (trim c.ip), ipv4 := c.ipv4, ipv6 := c.ipv6, delayMs := 50 }

/-- execute.rs:88-92: sending with the key in file `p`. `Sender::create` reads the key file after checking address and IP; here it is read before, which
makes a difference only to the trace. -/
def sendWithKeyFile (A : Aead) (hash : List Char → U64) (T : TextCodec) (dir p : Path) (env : ExecEnv) (c : CommandData) : Act Unit := do
  let raw ← (readFile p).attempt
  let keyText := match raw with
    | .ok b => T.dec b
    | .error _ => none
  let senv : SendEnv := ⟨keyText, env.resolve, env.rnd⟩
  let s ← Sender.create dir c.toSend senv
  s.send A hash senv

/-- execute.rs:72-92 and 112-118 `write_key_file`: the temporary file is removed when the handle goes out of scope, on success and on failure; a failure to remove it is ignored. -/
def execWithKey (A : Aead) (hash : List Char → U64) (T : TextCodec) (dir : Path) (env : ExecEnv) (key : List Char) (c : CommandData) : Act Unit := do
  if env.hasConfDir then do
    let p ← newTempFile dir env.draws
    let r ← (do
      writeAll p (T.enc (trim key))
      sendWithKeyFile A hash T dir p env c : Act Unit).attempt
    removeIgnoring p
    Act.ofExcept r
  else Act.throw .config

/-! ## The application (/repo/src/ui/app, /repo/src/ui/tabs) -/

/-- /repo/src/ui/app/execute_state.rs:12-33 `StatusKey`. -/
structure StatusKey where
  command : List Char
  address : List Char
  ip : List Char
  ipv4 : Bool
  ipv6 : Bool
  permissive : Bool
deriving DecidableEq, Repr

def StatusKey.of (c : CommandData) : StatusKey := ⟨c.command, c.address, c.ip, c.ipv4, c.ipv6, c.permissive⟩

inductive Color where
  | gray | green | red
deriving DecidableEq, Repr

/-- /repo/src/ui/app/mod.rs:26-33, the parts of `RurocoApp` that matter; `status` as a function. -/
structure Ui where
  list : List CommandData
  configText : List Char
  status : StatusKey → Option Bool

/-- execute_state.rs:40-46 `color_for`. -/
def Ui.colorFor (u : Ui) (c : CommandData) : Color :=
  match u.status (StatusKey.of c) with
  | some true => .green
  | some false => .red
  | none => .gray

def Ui.setStatus (u : Ui) (c : CommandData) (s : Option Bool) : Ui := { u with status := fun k => if k = StatusKey.of c then s else u.status k }

/-- What the user does. -/
inductive UiAction where
  /-- tab "Create": "Add Command" with these values in the form -/
  | add (address command ip : List Char) (permissive ipv4 ipv6 : Bool)
  /-- tab "Execute": the buttons of a saved command -/
  | delete (c : CommandData)
  | exec (env : ExecEnv) (key : List Char) (c : CommandData)
  /-- tab "Dashboard": typing or pasting into the text; its buttons -/
  | edit (t : List Char)
  | save
  | reset

/-- What happened. -/
inductive UiObs where
  | started (l : List CommandData)
  | added (c : CommandData)
  | deleted (c : CommandData)
  | executed (c : CommandData) (ok : Bool)
  | edited
  | replaced (l : List CommandData)
  | shown
deriving DecidableEq, Repr

/-- The file of the saved commands in the configuration directory (saved_command_list.rs:30); `dir` is the resolved configuration directory, which is the same for the whole life of the
application (app/mod.rs:41, execute.rs:113). -/
def listPath (dir : Path) : Path := dir ++ "/commands_list.toml".toList

/-- app/mod.rs:41-70 `new`. -/
def Ui.start (C : ListCodec) (dir : Path) : Act (Ui × UiObs) := do
  let l ← loadCommands C (listPath dir)
  pure (⟨l, showList l, fun _ => none⟩, .started l)

/-- One action: /repo/src/ui/tabs/create.rs:20, 29-47; execute.rs:57-60, 62-64, 69-103; dashboard_config.rs:28-42. -/
def Ui.act (C : ListCodec) (A : Aead) (hash : List Char → U64) (T : TextCodec) (dir : Path) (u : Ui) : UiAction → Act (Ui × UiObs)
  | .add address command ip permissive ipv4 ipv6 => do
    let c := addCommandName ⟨address, command.filter (fun x => !isWs x), permissive, ip, ipv4, ipv6, []⟩
    let l ← addCommand C (listPath dir) u.list c
    pure ({ u with list := l, configText := showList l }, .added c)
  | .delete c => do
    let u := u.setStatus c none
    let l ← removeCommand C (listPath dir) u.list c
    pure ({ u with list := l }, .deleted c)
  | .exec env key c => do
    let r ← (execWithKey A hash T dir env key c).attempt
    match r with
    | .ok () => pure (u.setStatus c (some true), .executed c true)
    | .error _ => pure (u.setStatus c (some false), .executed c false)
  | .edit t => pure ({ u with configText := t }, .edited)
  | .save => do
    let cmds := parseConfig u.configText
    let l ← setCommands C (listPath dir) cmds
    pure ({ u with list := l, configText := showList l }, .replaced cmds)
  | .reset => pure ({ u with configText := showList u.list }, .shown)

/-- Reachable states: the application is started on some disk, performs actions, and is started again after it ended or died, on the disk as it was left. Between any two actions the
surroundings may change arbitrarily except the file of the list (`hfile`). -/
inductive UiRun (C : ListCodec) (A : Aead) (hash : List Char → U64) (T : TextCodec) (dir : Path) : World → List UiObs → Ui → World → Prop
  | start {w w' : World} {u : Ui} {o : UiObs} (h : Ui.start C dir w = (.ok (u, o), w')) : UiRun C A hash T dir w [o] u w'
  | act {w w1 w2 w3 : World} {os : List UiObs} {u u' : Ui} {o : UiObs} (a : UiAction) (hr : UiRun C A hash T dir w os u w1) (hfile : w2.fs (listPath dir) = w1.fs (listPath dir))
      (h : u.act C A hash T dir a w2 = (.ok (u', o), w3)) : UiRun C A hash T dir w (os ++ [o]) u' w3
  | restart {w w1 w2 w3 : World} {os : List UiObs} {u u' : Ui} {o : UiObs} (hr : UiRun C A hash T dir w os u w1) (hfile : w2.fs (listPath dir) = w1.fs (listPath dir))
      (h : Ui.start C dir w2 = (.ok (u', o), w3)) : UiRun C A hash T dir w (os ++ [o]) u' w3
  | crash {w w1 w2 w3 w4 w5 : World} {os : List UiObs} {u u' : Ui} {o : UiObs} {e : Out (Ui × UiObs)} (a : UiAction) (hr : UiRun C A hash T dir w os u w1) (hfile : w2.fs (listPath dir) = w1.fs (listPath dir))
      (hc : u.act C A hash T dir a w2 = (e, w3)) (hfile' : w4.fs (listPath dir) = w3.fs (listPath dir)) (h : Ui.start C dir w4 = (.ok (u', o), w5)) :
      UiRun C A hash T dir w (os ++ [o]) u' w5

end Ruroco
