import Verif.Model.ClientHistory
import Verif.Model.UiFrames

/-!
# Specification for C85: what a client may do
-/

namespace Ruroco.Spec

/-- The files of a client with configuration directory `dir`: the counter, the temporary siblings written to replace it, the lock. -/
def ClientFile (dir q : Path) : Prop :=
  q = dir ++ "/counter".toList ∨ (∃ n : Nat, q = dir ++ "/counter.".toList ++ (toString n).toList ++ ".tmp".toList) ∨ q = dir ++ "/client.lock".toList

/-- The files of the graphical client besides these: the list of commands, the temporary siblings written to replace it, the temporary key files. -/
def UiFile (dir q : Path) : Prop :=
  ClientFile dir q ∨ q = dir ++ "/commands_list.toml".toList ∨ (∃ n : Nat, q = dir ++ "/commands_list.toml.".toList ++ (toString n).toList ++ ".tmp".toList) ∨
    ∃ draw : List Char, q = dir ++ "/.tmp".toList ++ draw

/-- What a client may be seen doing: operations on files satisfying `F`, datagrams to (and log entries about) the destinations satisfying `D`, pauses. -/
inductive ClientMay (F : Path → Prop) (D : Ip → Nat → Prop) : Event → Prop where
  | file (op : FileOp) (q : Path) (h : F q) : ClientMay F D (.file op q)
  | statFailed (q : Path) (h : F q) : ClientMay F D (.statFailed q)
  | dirSyncFailed (q : Path) (h : F q) : ClientMay F D (.dirSyncFailed q)
  | removeFailed (q : Path) (h : F q) : ClientMay F D (.removeFailed q)
  | udpSocket : ClientMay F D .udpSocket
  | udp (ip : Ip) (port : Nat) (c : U128) (bytes : List Byte) (h : D ip port) : ClientMay F D (.udp ip port c bytes)
  | sendTo (ip : Ip) (port : Nat) (h : D ip port) : ClientMay F D (.sendTo ip port)
  | sendFailed (ip : Ip) (port : Nat) (h : D ip port) : ClientMay F D (.sendFailed ip port)
  | sleep (ms : Nat) : ClientMay F D (.sleep ms)

/-- `ip` and `port` are among the addresses that name resolution returns for the address given by the user, completed with the standard port (C36) if it has none. -/
def ResolvesTo (address : List Char) (resolve : List Char → Option (List SockAddr)) (ip : Ip) (port : Nat) : Prop :=
  ∃ full all, ensurePort address 80 = .ok full ∧ resolve full = some all ∧ ⟨ip, port⟩ ∈ all

/-- The trace grew by events satisfying `E`, and the files not satisfying `F` stayed as they were. -/
def Within (F : Path → Prop) (E : Event → Prop) (w w' : World) : Prop := (∃ l, w'.log = w.log ++ l ∧ ∀ e ∈ l, E e) ∧ ∀ q, ¬ F q → w'.fs q = w.fs q

/-- An address that one of the sends of the history was told to talk to. -/
def NamedIn (evs : List CEv) (ip : Ip) (port : Nat) : Prop := ∃ env held cmd senv, CEv.send env held cmd senv ∈ evs ∧ ResolvesTo cmd.address senv.resolve ip port

/-- The addresses that the command executed in this action names; none for every other action. -/
def NamedBy : UiAction → Ip → Nat → Prop
  | .exec env _ c => ResolvesTo c.address env.resolve
  | _ => fun _ _ => False

/-- The addresses named by the command whose button is pressed in this frame. -/
def NamedInFrame (f : Frame) (ip : Ip) (port : Nat) : Prop := ∃ env c, f.exec = some (env, c) ∧ ResolvesTo c.address env.resolve ip port

end Ruroco.Spec
