import Verif.Model.Joint
import Verif.Spec.Commander
import Verif.Spec.IpBlocks
import Verif.Spec.Terms.Joint

/-!
# Words used in the statements of `Props/Reseed.lean`
-/

namespace Ruroco

open Spec (datagrams wire counterOnDisk onDisk forwards Seals Acceptable PowerLoss Survives Durable)

/-- Events of a client that goes on using its key: sends, in which this key id always comes with this key and nonces have the right size. -/
def UsesKey (b : Bond) : CEv → Prop
  | .send _ _ _ senv =>
    (∀ t h, senv.keyText = some t → CryptoHandler.create (trim t) = .ok h → h.id = b.k → h.key = b.key) ∧
    ∀ i iv, senv.rnd i = some iv → iv.length = 12
  | .others => True
  | _ => False

/-- The server's answer to a datagram is "replayed". -/
def RejectedAsReplay (A : Aead) (s : Server) (bytes : List Byte) (src : Ip) (rd : Readings) (w : World) : Prop :=
  ∃ s' w', s.iteration A bytes src rd w = (.ok (s', .error .replayed), w')

/-- All clock readings of a server event are at most `t`. -/
def Ev.ClockAtMost (t : Nat) : Ev → Prop
  | .start env _ _ => ∀ x, some x ∈ env.clock → x.toNat ≤ t
  | .packet env _ _ _ _ => ∀ x, some x ∈ env.clock → x.toNat ≤ t
  | _ => True

end Ruroco
