import Verif.Model.Client

/-!
# What the command line client says about a send

The sending functions of `Model/Client` once more, with the lines they write. Left out are the line about the counter file that is loaded, lines before the destinations are known, and time stamps.
-/

namespace Ruroco

/-- Why a destination could not be served: what `{e}` shows, i.e. the outermost context of the error. -/
inductive SendFailure where
  /-- /repo/src/client/counter.rs:41-46 -/
  | overflow
  /-- counter.rs:58-59 -/
  | counterFile (path : Path)
  /-- /repo/src/common/crypto/handler_ops.rs:38 -/
  | noIv
  /-- handler_ops.rs:51-53; the failures of the calls between are not told apart from this one -/
  | badLength
  /-- /repo/src/client/send/network.rs:55-57 -/
  | socket (addr : SockAddr)
deriving DecidableEq, Repr

/-- The lines about destinations. -/
inductive ClientLine where
  /-- /repo/src/client/send/core.rs:78, standard output -/
  | found (dsts : List SockAddr) (address : List Char)
  /-- network.rs:52, standard output -/
  | connecting (addr : SockAddr)
  /-- network.rs:59, standard output -/
  | sent (command : List Char) (addr : SockAddr)
  /-- core.rs:94, standard error -/
  | failed (addr : SockAddr) (why : SendFailure)
  /-- core.rs:99-101, shown by the runtime when `main` (/repo/src/bin/client.rs:6-8) returns it, standard error -/
  | gaveUp (failures : List (SockAddr × SendFailure))
deriving DecidableEq, Repr

/-- An action that also writes lines; they are kept however it ends. -/
def Talk (α : Type) := World → Out α × World × List ClientLine

namespace Talk

def pure (a : α) : Talk α := fun w => (.ok a, w, [])

def bind (m : Talk α) (f : α → Talk β) : Talk β := fun w =>
  match m w with
  | (.ok a, w', l) => ((f a w').1, (f a w').2.1, l ++ (f a w').2.2)
  | (.err e, w', l) => (.err e, w', l)
  | (.crash, w', l) => (.crash, w', l)

instance : Monad Talk where
  pure := pure
  bind := bind

/-- A silent action. -/
def lift (m : Act α) : Talk α := fun w => ((m w).1, (m w).2, [])

/-- Write a line. -/
def say (line : ClientLine) : Talk Unit := fun w => (.ok (), w, [line])

/-- Without the lines. -/
def mute (m : Talk α) : Act α := fun w => ((m w).1, (m w).2.1)

end Talk

/-- counter.rs:40-49: which of its two errors `inc` gives. -/
def Counter.incFailure (c : Counter) : SendFailure := if c.count.toNat + 1 < 2 ^ 128 then .counterFile c.path else .overflow

/-- handler_ops.rs:32-62: which of its errors `encrypt` gives. -/
def encryptFailure : Option (List Byte) → SendFailure
  | none => .noIv
  | some _ => .badLength

/-- network.rs:44-62 `send_data`, as `Sender.sendData`. -/
def Sender.sendDataT (A : Aead) (hash : List Char → U64) (s : Sender) (addr : SockAddr) (rnd : Option (List Byte)) : Talk (Sender × Except (Err × SendFailure) Unit) := do
  Talk.lift (note (.sendTo addr.ip addr.port))
  let x ← Talk.lift s.counter.inc
  match x.2 with
  | .error e => pure ({ s with counter := x.1 }, .error (e, s.counter.incFailure))
  | .ok () => do
    Talk.say (.connecting addr)
    match encode A s.handler rnd (Sender.request hash { s with counter := x.1 } addr.ip).serialize with
    | .error e => pure ({ s with counter := x.1 }, .error (e, encryptFailure rnd))
    | .ok bytes => do
      match ← Talk.lift (sendUdp addr x.1.count bytes).attempt with
      | .error e => pure ({ s with counter := x.1 }, .error (e, .socket addr))
      | .ok () => do
        Talk.say (.sent s.cmd.command addr)
        pure ({ s with counter := x.1 }, .ok ())

/-- core.rs:86-97, as `Sender.sendLoop`; returns the failures. -/
def Sender.sendLoopT (A : Aead) (hash : List Char → U64) (rnd : Nat → Option (List Byte)) (s : Sender) (i : Nat) : List SockAddr → Talk (Sender × List (SockAddr × SendFailure))
  | [] => pure (s, [])
  | a :: rest => do
    Talk.lift (s.pause i)
    let x ← s.sendDataT A hash a (rnd i)
    match x.2 with
    | .error e => do
      Talk.say (.failed a e.2)
      Talk.lift (note (.sendFailed a.ip a.port))
      let y ← x.1.sendLoopT A hash rnd (i + 1) rest
      pure (y.1, (a, e.2) :: y.2)
    | .ok () => x.1.sendLoopT A hash rnd (i + 1) rest

/-- core.rs:86-102 `send_to_destinations`, as `Sender.sendToDestinations`. -/
def Sender.sendToDestinationsT (A : Aead) (hash : List Char → U64) (rnd : Nat → Option (List Byte)) (s : Sender) (dsts : List SockAddr) : Talk Unit := do
  let x ← s.sendLoopT A hash rnd 0 dsts
  if dsts ≠ [] ∧ x.2.length = dsts.length then do
    Talk.say (.gaveUp x.2)
    Talk.lift (Act.throw .notSent)
  else pure ()

/-- core.rs:75-80 `send`, as `Sender.send`. -/
def Sender.sendT (A : Aead) (hash : List Char → U64) (s : Sender) (env : SendEnv) : Talk Unit := do
  let dsts ← Talk.lift (Act.ofExcept (getDestinationIps s.cmd.ipv4 s.cmd.ipv6 (env.resolve s.cmd.address)))
  Talk.say (.found dsts s.cmd.address)
  s.sendToDestinationsT A hash env.rnd dsts

/-! ## The texts -/

/-- network.rs:46-50 -/
def bindAddress (a : SockAddr) : List Char := if a.ip.isV4 then "0.0.0.0:0".toList else "[::]:0".toList

/-- `{e}`. `quoted`: how `{:?}` shows a path. -/
def SendFailure.text (quoted : Path → List Char) : SendFailure → List Char
  | .overflow => "counter overflow: value has reached u128::MAX (340282366920938463463374607431768211455) and cannot be incremented".toList
  | .counterFile p => "Could not write counter file ".toList ++ quoted p
  | .noIv => "Could not generate IV".toList
  | .badLength => "ciphertext length mismatch".toList
  | .socket a => "Could not connect/send data to ".toList ++ showSockAddr a

/-- Texts with a separator between. -/
def joinWith (sep : List Char) : List (List Char) → List Char
  | [] => []
  | [t] => t
  | t :: u :: rest => t ++ sep ++ joinWith sep (u :: rest)

/-- The text of a line. -/
def ClientLine.text (quoted : Path → List Char) : ClientLine → List Char
  | .found dsts address => "Found addresses [".toList ++ joinWith ", ".toList (dsts.map showSockAddr) ++ "] for ".toList ++ address
  | .connecting a => "Connecting to ".toList ++ showSockAddr a ++ "...".toList
  | .sent command a => "Sent command ".toList ++ command ++ " from ".toList ++ bindAddress a ++ " to udp://".toList ++ showSockAddr a
  | .failed a why => "Could not send to ".toList ++ showSockAddr a ++ ": ".toList ++ why.text quoted
  | .gaveUp fs => "Error: Could not send to any destination: ".toList ++ joinWith "; ".toList (fs.map fun x => showSockAddr x.1 ++ ": ".toList ++ x.2.text quoted)

end Ruroco
