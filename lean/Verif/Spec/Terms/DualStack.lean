import Verif.Spec.Server
import Verif.Spec.Terms.SysOk

/-! # Deliveries in working order -/

namespace Ruroco

/-- A datagram from `src` reaches server `s` at wall-clock time `now`, the disk, the clock and the commander's socket work, and the rate limits are not reached; the server is then `s'`. -/
structure Arrives (A : Aead) (s : Server) (dg : List Byte) (src : Ip) (now : U128) (w : World) (s' : Server) (w' : World) : Prop where
  works : AllOk w
  clock : ∃ t c, w.clock = some now :: some t :: c
  taken : ∃ rd rl e, Spec.RateOk s src rd rl ∧ s.iteration A dg src rd w = (.ok (s', e), w')

end Ruroco
