import Verif.Model.Joint
import Verif.Spec.Commander
import Verif.Spec.IpBlocks
import Verif.Spec.Terms.EndToEnd

/-!
# Words used in the statements of `Props/Joint.lean`
-/

namespace Ruroco

open Spec (datagrams wire counterOnDisk onDisk Seals Acceptable PowerLoss Survives Durable)

/-- Before anything happened: the client has sent nothing and has no counter or one not below `T`; the server is not running and has stored no
counter for the key or one not above `T`. -/
structure JInit (b : Bond) (cdir sdir : Path) (j : Joint) : Prop where
  nothingSent : wire j.cw.log = []
  counterSafe : Durable j.cw (counterPath cdir)
  counter : j.cw.fs (counterPath cdir) = none ∨ ∃ v, counterOnDisk j.cw (counterPath cdir) = some v ∧ b.T ≤ v
  stopped : j.sys.srv = none
  storedSafe : Durable j.sys.w (blocklistPath sdir)
  stored : ∀ v, onDisk j.sys.w (blocklistPath sdir) b.k = some v → v.toNat ≤ b.T

/-- What is not covered: with power losses, ignored failures of the directory fsync (C55); a failing `stat` at a server start (C16). -/
structure JCovered (cdir sdir : Path) (evs : List JEv) (j : Joint) : Prop where
  client : .client .power ∈ evs → .dirSyncFailed (counterPath cdir) ∉ j.cw.log
  server : .server .power ∈ evs → .dirSyncFailed (blocklistPath sdir) ∉ j.sys.w.log
  stat : .statFailed (blocklistPath sdir) ∉ j.sys.w.log

end Ruroco
