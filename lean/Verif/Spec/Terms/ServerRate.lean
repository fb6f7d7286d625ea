import Verif.Model.Run
import Verif.Spec.Rate
import Verif.Spec.Server
import Verif.Spec.Terms.Server
import Verif.Spec.Terms.Codec
import Verif.Spec.Terms.Rate

/-!
# Words used in the statements of `Props/ServerRate.lean`
-/

namespace Ruroco

open Spec (Req Timed limit admitted)

/-- A datagram the server has finished with: what arrived when, and how it ended. -/
structure Finished where
  dg : List Byte
  src : Ip
  arr : Nat
  rd : Readings
  tLog : Nat
  result : Except Err Unit

/-- The server went through these datagrams, in any worlds (other events of the machine in between). -/
inductive Served (A : Aead) : Server → List Finished → Server → Prop
  | nil (s : Server) : Served A s [] s
  | cons {s s1 s2 : Server} {f : Finished} {fs : List Finished} (w w' : World)
      (h : s.handleDatagram A f.dg f.src f.rd f.tLog w = (.ok (s1, f.result), w')) (hs : Served A s1 fs s2) : Served A s (f :: fs) s2

/-- The requests that reach the limiter: datagrams of at least 94 bytes. -/
def requests (fs : List Finished) : List Req :=
  (fs.filter (fun f => decide (94 ≤ f.dg.length))).map (fun f => ⟨normalizeIp f.src, f.arr, f.rd⟩)

/-- Not refused by the limiter. -/
def Finished.passed (f : Finished) : Bool :=
  decide (94 ≤ f.dg.length) && match f.result with
    | .error .rateIp => false
    | .error .rateGlobal => false
    | _ => true

/-- Times of the failures. -/
def failures (fs : List Finished) : List Nat :=
  fs.filterMap (fun f => match f.result with
    | .error _ => some f.tLog
    | .ok _ => none)

end Ruroco
