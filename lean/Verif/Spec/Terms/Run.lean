import Verif.Model.Run
import Verif.Spec.Server
import Verif.Spec.Terms.Alive
import Verif.Spec.Terms.Server
import Verif.Spec.Terms.Codec

/-!
# Words used in the statements of `Props/Run.lean`
-/

namespace Ruroco

open Spec (forwards)

/-- What a turn of a healthy loop does to server and world. -/
def turn (A : Aead) (s : Server) (w : World) (t : Turn) : Server × World :=
  match t.recv with
  | .datagram dg src rd tl =>
    match s.handleDatagram A dg src rd tl (w.withEnv t.env (dg.take MSG_SIZE)) with
    | (.ok (s', _), w') => (s', w')
    | (_, w') => (s, w')
  | _ => (s, w)

end Ruroco
