import Verif.Model.Restart

/-!
# Specification: services that come back

The state of the machine is a function of time. `Able cfg m t`: a server started at that time gets through its start.
-/

namespace Ruroco.Spec

/-- A server started at time `t` gets through its start. -/
def Able (cfg : ServerCfg) (m : Nat → World × StartEnv) (t : Nat) : Prop := ∃ s, (Server.create cfg (m t).2 (m t).1).1 = .ok s

/-- A service whose process has just ended, or that has not been started since boot, is to be started at time `t`; it was not started in the ten seconds before. -/
structure Fresh (s : Service) (t : Nat) : Prop where
  due : s.phase = .due t
  quiet : ∀ b, s.limit.since = some b → b + 10000 < t
  first : s.starts = []

/-- The service runs at some time. -/
def ComesUp (p : RestartPolicy) (lasts : Nat → Option Nat) (s : Service) : Prop := ∃ n t, (s.after p lasts n).phase = .up t

/-- systemd gives the service up at some time. -/
def GivenUp (p : RestartPolicy) (lasts : Nat → Option Nat) (s : Service) : Prop := ∃ n t, (s.after p lasts n).phase = .down t

end Ruroco.Spec
