import Verif.Model.Units
import Verif.Model.Server

/-!
# systemd starting the services again

What systemd does with `Restart=` and its start limit (systemd.service(5), systemd.unit(5), systemd-system.conf(5)), for the two units of /repo/systemd. systemd itself is not in /repo: this is
its documented behaviour with the documented default values, which the units do not change.

Simplifications: time is counted in milliseconds; a service that is due is started exactly then; nobody stops or starts it by hand; `[Unit]` settings are the ones of systemd 230 or later. The
socket unit does not help once systemd has given up: it fails together with its service (`service-start-limit-hit`).
-/

namespace Ruroco

/-- Decimal number, as in the values of the settings below without a unit. -/
def unitNumber (s : List Char) : Option Nat := if s = [] then none else s.foldl (fun a c => a.bind (fun n => if c.isDigit then some (n * 10 + (c.toNat - 48)) else none)) (some 0)

/-- The number assigned to a key of a section, or the default. -/
def UnitFile.number (u : UnitFile) (sect key : String) (default : Nat) : Nat :=
  match (u.filterMap (fun l => if l.1 = sect.toList ∧ l.2.1 = key.toList then some l.2.2 else none)).getLast? with
  | none => default
  | some v => (unitNumber v).getD default

/-- How systemd treats a service whose process has ended. -/
structure RestartPolicy where
  /-- `Restart=always`: it is started again, however the process has ended -/
  always : Bool
  /-- `RestartSec=`: that long after the end, in ms -/
  delay : Nat
  /-- `StartLimitIntervalSec=`, in ms -/
  interval : Nat
  /-- `StartLimitBurst=`: at most that many starts in the interval -/
  burst : Nat
deriving DecidableEq, Repr

/-- The settings of a unit (/repo/systemd/ruroco.service:9, /repo/systemd/ruroco-commander.service:9 `Restart=always`); the others are not set there and have their defaults. Values are read as
whole seconds. -/
def UnitFile.policy (u : UnitFile) : RestartPolicy :=
  { always := u.isSet "Restart" "always"
    delay := match u.values "RestartSec" with | [] => 100 | _ => 1000 * u.number "Service" "RestartSec" 0
    interval := 1000 * u.number "Unit" "StartLimitIntervalSec" 10
    burst := u.number "Unit" "StartLimitBurst" 5 }

/-- systemd's counter of starts: when the current interval began and how many starts it has seen. -/
structure StartLimit where
  since : Option Nat
  count : Nat

/-- May the unit be started at time `t`? (systemd's `unit_test_start_limit`.) A new interval begins with the first start after the end of the one before. -/
def StartLimit.test (p : RestartPolicy) (l : StartLimit) (t : Nat) : Option StartLimit :=
  match l.since with
  | none => some ⟨some t, 1⟩
  | some b => if b + p.interval < t then some ⟨some t, 1⟩ else if l.count < p.burst then some ⟨some b, l.count + 1⟩ else none

inductive Phase where
  /-- to be started at that time -/
  | due (t : Nat)
  /-- running since then, for good -/
  | up (t : Nat)
  /-- ended; not to be started again -/
  | down (t : Nat)
deriving DecidableEq, Repr

/-- A service: what it is doing, the start limit, and when it was started so far (last first). -/
structure Service where
  phase : Phase
  limit : StartLimit
  starts : List Nat

/-- The next thing systemd does. `lasts t`: how long a process started at time `t` lasts, in ms; `none`: it does not end. -/
def Service.next (p : RestartPolicy) (lasts : Nat → Option Nat) (s : Service) : Service :=
  match s.phase with
  | .up _ => s
  | .down _ => s
  | .due t =>
    match s.limit.test p t with
    | none => { s with phase := .down t }
    | some l =>
      match lasts t with
      | none => ⟨.up t, l, t :: s.starts⟩
      | some r => ⟨if p.always then .due (t + r + p.delay) else .down (t + r), l, t :: s.starts⟩

/-- After `n` such things. -/
def Service.after (p : RestartPolicy) (lasts : Nat → Option Nat) (s : Service) : Nat → Service
  | 0 => s
  | n + 1 => (s.after p lasts n).next p lasts

/-- How long a server process lasts that is started on a machine in state `m t`: a start that fails ends it at once (`main` of /repo/src/bin/server.rs returns the error), otherwise it serves. -/
def serverLasts (cfg : ServerCfg) (m : Nat → World × StartEnv) (t : Nat) : Option Nat :=
  match (Server.create cfg (m t).2 (m t).1).1 with
  | .ok _ => none
  | .err _ => some 0
  | .crash => some 0

end Ruroco
