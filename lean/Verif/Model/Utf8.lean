import Verif.Model.Ui

/-!
# UTF-8

The text codec the programs use: `String::as_bytes` and `fs::read_to_string` of Rust's standard library (/repo/src/ui/tabs/execute.rs:116, /repo/src/client/send/core.rs:31). Both Rust's
strings and Lean's are sequences of Unicode scalar values, encoded as RFC 3629 says; the encoder and the strict decoder are those of Lean's core library, which are defined in Lean.
-/

namespace Ruroco

/-- UTF-8. -/
def utf8 : TextCodec where
  enc t := (t.flatMap String.utf8EncodeChar).map UInt8.toBitVec
  dec b := (ByteArray.mk (b.map UInt8.ofBitVec).toArray).utf8Decode?.map Array.toList

end Ruroco
