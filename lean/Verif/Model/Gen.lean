import Verif.Model.Cli

/-!
# `ruroco-client gen`

The key is printed on standard output, which the documentation sends to a file (/repo/README.md:309).
-/

namespace Ruroco

/-- Standard output of a Rust program (`std::io::Stdout`, a `LineWriter` with a buffer of 1024 bytes): what was printed and not yet handed to the operating system, and what was received at the other end.
Only ASCII is printed, so a character is a byte. -/
structure Stdout where
  pending : List Char
  received : List Char

/-- What the file, pipe or terminal behind standard output takes before writing to it fails (disk full, quota, reader gone); `none`: everything. -/
abbrev Takes := Option Nat

def Takes.part : Takes → List Char → List Char
  | none, t => t
  | some k, t => t.take k

/-- Does writing these to the other end succeed? -/
def Takes.enough : Takes → List Char → Bool
  | none, _ => true
  | some k, t => decide (t.length ≤ k)

/-- `print!`: a text without line break that fits is kept for later. Simplification: any other is handed on whole (in fact, up to the last line break; the client prints no such text). A failure to write makes `print!` panic. -/
def Stdout.print (s : Stdout) (text : List Char) (sink : Takes) : Except Unit Stdout :=
  if '\n' ∉ text ∧ s.pending.length + text.length < 1024 then .ok { s with pending := s.pending ++ text }
  else if sink.enough (s.pending ++ text) then .ok ⟨[], s.received ++ s.pending ++ text⟩
  else .error ()

/-- What the other end has received when the process has ended: the runtime writes what is pending, and ignores errors (`std::io::cleanup`). -/
def Stdout.atExit (s : Stdout) (sink : Takes) : List Char := s.received ++ sink.part s.pending

/-- What surrounds a run of `gen`: the draws of the random number generator, and the other end of standard output. -/
structure GenEnv where
  rndKey : Option (List Byte)
  rndId : Option (List Byte)
  sink : Takes

/-- /repo/src/client/mod.rs:22-30 and /repo/src/client/gen.rs:11-15, and the end of the process: its result (`main` returns it: exit status 0 or 1; a panic aborts) and what was received on standard output. -/
def runGen (dir : Path) (held : Bool) (e : GenEnv) (w : World) : (Out Unit × World) × List Char :=
  match acquireLock (dir ++ "/client.lock".toList) held w with
  | (.crash, w') => ((.crash, w'), [])
  | (.err x, w') => ((.err x, w'), [])
  | (.ok (), w') =>
    match genKey e.rndKey e.rndId with
    | .error x => ((.err x, w'), [])
    | .ok key =>
      match (Stdout.mk [] []).print key e.sink with
      | .error () => ((.crash, w'), [])
      | .ok s => ((.ok (), w'), s.atExit e.sink)

end Ruroco
