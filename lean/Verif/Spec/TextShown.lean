import Verif.Spec.Ui

/-! # The words used in C61: since when the command text is what it is -/

namespace Ruroco.Spec

/-- What happened up to the last time the program itself set the command text, and the commands deleted since; `none` if the user has edited the text since. Latest first. -/
def textShown : List UiObs → Option (List UiObs × List CommandData)
  | [] => none
  | .started l :: os => some (.started l :: os, [])
  | .added c :: os => some (.added c :: os, [])
  | .replaced l :: os => some (.replaced l :: os, [])
  | .shown :: os => some (.shown :: os, [])
  | .executed _ _ :: os => textShown os
  | .edited :: _ => none
  | .deleted c :: os => (textShown os).map (fun p => (p.1, c :: p.2))

end Ruroco.Spec
