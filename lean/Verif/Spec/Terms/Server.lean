import Verif.Model.Server
import Verif.Spec.Ip
import Verif.Spec.Terms.Blocklist
import Verif.Spec.Terms.SysOk

/-!
# Words used in claims, about which there are lemmas in `Lemmas/Server.lean`
-/

namespace Ruroco

/-- The replay-state file holds (after decoding) exactly the counters of `m`, is no longer than these need, and its data is on disk. -/
def DiskHolds (f : Option File) (m : BlMap) : Prop :=
  ∃ file m', f = some file ∧ file.synced = true ∧ decodeBl file.data = some m' ∧ (∀ k, m'.get k = m.get k) ∧ file.data.length ≤ 6 + 35 * m'.length

/-- The replay state in memory is as the server makes it: distinct keys of 8 bytes; and it is written in some order of its entries. -/
structure Blocklist.Wf (b : Blocklist) : Prop where
  map : b.map.Wf
  order : ∀ m, (b.order m).Perm m

end Ruroco
