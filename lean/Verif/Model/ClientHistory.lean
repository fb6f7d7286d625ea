import Verif.Model.Client
import Verif.Model.History

/-!
# Histories of one client installation

Sends and reseeds in any order, each with its own failing calls, crash point and clock readings, power losses, and other processes changing other
files. Two clients at the same time are excluded by the client lock (C31); `held` lets a run be refused because of it.
-/

namespace Ruroco

inductive CEv where
  /-- a `send`, complete or ended by failures or a crash -/
  | send (env : Env) (held : Bool) (cmd : SendCmd) (senv : SendEnv)
  | reseed (env : Env) (held : Bool)
  | power
  | others

/-- One event on the client's machine. `dir`: configuration directory. -/
inductive CStep (A : Aead) (hash : List Char → U64) (dir : Path) : World → CEv → World → Prop
  | send (w : World) (env : Env) (held : Bool) (cmd : SendCmd) (senv : SendEnv) (o : Out Unit) (w' : World)
      (h : runSend A hash dir held cmd senv (w.withEnv env []) = (o, w')) : CStep A hash dir w (.send env held cmd senv) w'
  | reseed (w : World) (env : Env) (held : Bool) (o : Out Unit) (w' : World)
      (h : runReseed dir held (w.withEnv env []) = (o, w')) : CStep A hash dir w (.reseed env held) w'
  | power (w w' : World) (h : Spec.PowerLoss w w') : CStep A hash dir w .power w'
  | others (w w' : World) (hfs : w'.fs (counterPath dir) = w.fs (counterPath dir))
      (hpend : w'.pend (counterPath dir) = w.pend (counterPath dir)) (hlog : w'.log = w.log) : CStep A hash dir w .others w'

inductive CRun (A : Aead) (hash : List Char → U64) (dir : Path) : World → List CEv → World → Prop
  | nil (w : World) : CRun A hash dir w [] w
  | snoc {w w' w'' : World} {evs : List CEv} {e : CEv} : CRun A hash dir w evs w' → CStep A hash dir w' e w'' → CRun A hash dir w (evs ++ [e]) w''

end Ruroco
