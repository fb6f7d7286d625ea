import Verif.Model.Server
import Verif.Spec.Fs

/-!
# Histories of one server installation

A labelled transition system on top of the functions of `Model/Server`: the server is started, receives datagrams, is killed, the
machine loses power, in any order, any number of times. Every event carries its own failing calls, crash point and clock readings,
so all combinations are covered. The only things excluded are that somebody else changes the replay-state file, and a second
server process at the same time (that one is property C57, see `Model/TwoServers`).
-/

namespace Ruroco

/-- What the operating system does during one event: outcome of each system call, readings of the wall clock. -/
structure Env where
  oracle : List Choice
  clock : List (Option U128)

def World.withEnv (w : World) (env : Env) (cur : List Byte) : World :=
  { w with oracle := env.oracle, clock := env.clock, cur := cur }

inductive Ev where
  /-- the server process is started (listener.rs:40-58) -/
  | start (env : Env) (cfg : ServerCfg) (senv : StartEnv)
  /-- the running server receives a datagram (listener.rs:83-86) -/
  | packet (env : Env) (dg : List Byte) (src : Ip) (rd : Readings) (tLog : Nat)
  /-- the running server is killed between two datagrams (being killed while processing one is part of `packet`) -/
  | kill
  /-- the machine loses power; the server is gone, files are as `PowerLoss` allows -/
  | power
  /-- other processes change other files -/
  | others

structure Sys where
  w : World
  srv : Option Server

/-- One event. `dir` is the directory of the replay-state file. -/
inductive Step (A : Aead) (dir : Path) : Sys → Ev → Sys → Prop
  | started (w : World) (env : Env) (cfg : ServerCfg) (senv : StartEnv) (s : Server) (w' : World)
      (hdir : cfg.blDir = dir) (hord : ∀ m, (senv.order m).Perm m)
      (h : Server.create cfg senv (w.withEnv env []) = (.ok s, w')) :
      Step A dir ⟨w, none⟩ (.start env cfg senv) ⟨w', some s⟩
  | startFailed (w : World) (env : Env) (cfg : ServerCfg) (senv : StartEnv) (o : Out Server) (w' : World)
      (hdir : cfg.blDir = dir) (hord : ∀ m, (senv.order m).Perm m)
      (h : Server.create cfg senv (w.withEnv env []) = (o, w')) (hne : ∀ s, o ≠ .ok s) :
      Step A dir ⟨w, none⟩ (.start env cfg senv) ⟨w', none⟩
  | packet (w : World) (s : Server) (env : Env) (dg : List Byte) (src : Ip) (rd : Readings) (tLog : Nat)
      (s' : Server) (r : Except Err Unit) (w' : World)
      (h : s.handleDatagram A dg src rd tLog (w.withEnv env (dg.take MSG_SIZE)) = (.ok (s', r), w')) :
      Step A dir ⟨w, some s⟩ (.packet env dg src rd tLog) ⟨w', some s'⟩
  | packetCrash (w : World) (s : Server) (env : Env) (dg : List Byte) (src : Ip) (rd : Readings) (tLog : Nat) (w' : World)
      (h : s.handleDatagram A dg src rd tLog (w.withEnv env (dg.take MSG_SIZE)) = (.crash, w')) :
      Step A dir ⟨w, some s⟩ (.packet env dg src rd tLog) ⟨w', none⟩
  | kill (w : World) (s : Option Server) : Step A dir ⟨w, s⟩ .kill ⟨w, none⟩
  | power (w : World) (s : Option Server) (w' : World) (h : Spec.PowerLoss w w') : Step A dir ⟨w, s⟩ .power ⟨w', none⟩
  | others (w w' : World) (s : Option Server) (hfs : w'.fs (blocklistPath dir) = w.fs (blocklistPath dir))
      (hpend : w'.pend (blocklistPath dir) = w.pend (blocklistPath dir)) (hlog : w'.log = w.log) :
      Step A dir ⟨w, s⟩ .others ⟨w', s⟩

/-- Any sequence of events. -/
inductive Run (A : Aead) (dir : Path) : Sys → List Ev → Sys → Prop
  | nil (s : Sys) : Run A dir s [] s
  | snoc {s s' s'' : Sys} {evs : List Ev} {e : Ev} : Run A dir s evs s' → Step A dir s' e s'' → Run A dir s (evs ++ [e]) s''

end Ruroco
