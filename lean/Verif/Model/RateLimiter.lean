import Verif.Model.Protocol

/-!
# Rate limiter and error-log throttle
-/

namespace Ruroco

/-- One second in nanoseconds. -/
def SECOND : Nat := 1000000000

/-- A `(window start, count)` slot. Instants of the monotonic clock are nanosecond numbers. -/
structure Slot where
  start : Nat
  count : Nat
deriving DecidableEq, Repr

/-- /repo/src/server/rate_limiter.rs:7-10 `RateLimiter`. -/
structure RateLimiter where
  perIp : List (Ip × Slot)
  global : Slot
deriving DecidableEq, Repr

/-- The readings of the monotonic clock taken during one `check`, in program order: `sweep` by the `retain` closure (one per
entry in the code; it is read per address here), the one of `or_insert_with`, then up to two per `bump`. -/
structure Readings where
  sweep : Ip → Nat
  insert : Nat
  ipElapsed : Nat
  ipReset : Nat
  globalElapsed : Nat
  globalReset : Nat

/-- rate_limiter.rs:13-18 `new`. -/
def RateLimiter.new (now : Nat) : RateLimiter := { perIp := [], global := ⟨now, 0⟩ }

/-- rate_limiter.rs:48-58 `bump`; `elapsed` saturates at zero. -/
def Slot.bump (e : Slot) (max : Nat) (tElapsed tReset : Nat) : Bool × Slot :=
  if tElapsed - e.start ≥ SECOND then (true, ⟨tReset, 1⟩)
  else if e.count ≥ max then (false, e)
  else (true, { e with count := e.count + 1 })

def lookupIp (l : List (Ip × Slot)) (ip : Ip) : Option Slot :=
  match l with
  | [] => none
  | (i, s) :: rest => if i = ip then some s else lookupIp rest ip

def setIp (l : List (Ip × Slot)) (ip : Ip) (s : Slot) : List (Ip × Slot) :=
  match l with
  | [] => [(ip, s)]
  | (i, s') :: rest => if i = ip then (ip, s) :: rest else (i, s') :: setIp rest ip s

/-- rate_limiter.rs:62-64 `drop_old_entries`. -/
def dropOld (l : List (Ip × Slot)) (rd : Readings) : List (Ip × Slot) :=
  l.filter (fun e => rd.sweep e.1 - e.2.start < SECOND)

/-- rate_limiter.rs:27-44 `check`: verdict and new state (state changes persist on rejection too). -/
def RateLimiter.check (rl : RateLimiter) (ip : Ip) (maxPerIp maxGlobal : Nat) (rd : Readings) :
    Except Err Unit × RateLimiter :=
  let swept := dropOld rl.perIp rd
  let slot := (lookupIp swept ip).getD ⟨rd.insert, 0⟩
  let (okIp, slot') := slot.bump maxPerIp rd.ipElapsed rd.ipReset
  let perIp := setIp swept ip slot'
  if !okIp then (.error .rateIp, { rl with perIp })
  else
    let (okG, global') := rl.global.bump maxGlobal rd.globalElapsed rd.globalReset
    if !okG then (.error .rateGlobal, { perIp, global := global' })
    else (.ok (), { perIp, global := global' })

/-- /repo/src/server/error_throttle.rs:12-15 `ErrorThrottle`. -/
structure ErrorThrottle where
  lastLog : Option Nat
  suppressed : Nat
deriving DecidableEq, Repr

/-- error_throttle.rs:6 -/
def LOG_INTERVAL : Nat := 5 * SECOND

/-- error_throttle.rs:20-43 `log`: the error line emitted, if any, as the number of occurrences it says were suppressed; and the
new state. Simplification: the suppression counter is unbounded instead of `u64`. -/
def ErrorThrottle.log (t : ErrorThrottle) (now : Nat) : Option Nat × ErrorThrottle :=
  let due := match t.lastLog with
    | some last => decide (now - last ≥ LOG_INTERVAL)
    | none => true
  if !due then (none, { t with suppressed := t.suppressed + 1 })
  else (some t.suppressed, { lastLog := some now, suppressed := 0 })

end Ruroco
