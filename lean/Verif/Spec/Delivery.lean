import Verif.Model.History

/-!
# Specification vocabulary: datagrams reaching a running server, all system calls working
-/

namespace Ruroco

/-- A datagram reaching the server, with the clock readings while it is processed. -/
structure Arrival where
  dg : List Byte
  src : Ip
  rd : Readings
  tLog : Nat
  now : U128
  saveTime : U128

/-- The server handles these datagrams one after the other, all system calls working; also returned: the result for each. -/
def deliver (A : Aead) (s : Server) (w : World) : List Arrival → Server × World × List (Except Err Unit)
  | [] => (s, w, [])
  | a :: rest =>
    match s.handleDatagram A a.dg a.src a.rd a.tLog (w.withEnv ⟨[], [some a.now, some a.saveTime]⟩ (a.dg.take MSG_SIZE)) with
    | (.ok (s', r), w') => ((deliver A s' w' rest).1, (deliver A s' w' rest).2.1, r :: (deliver A s' w' rest).2.2)
    | (_, w') => (s, w', [])

/-- The limiter refused nothing. -/
def NotLimited (rs : List (Except Err Unit)) : Prop := .error .rateIp ∉ rs ∧ .error .rateGlobal ∉ rs

end Ruroco
