import Verif.Model.Inner
/-!
# An archive with other things in between
-/

namespace AsyncZip.Spec

/-- The calls of a program, without what it does to the sink. -/
def calls : List MixedStep → List Op
  | [] => []
  | .call op :: steps => op :: calls steps
  | .sink _ :: steps => calls steps

/-- What the program writes past the writer, each with the length that the archive alone would have had by then. -/
def asides (C : Codec) (zw : ZipWriter) : List MixedStep → List (Nat × Bytes)
  | [] => []
  | .call op :: steps => asides C (runOp C zw op).2 steps
  | .sink k :: steps => (zw.writer.sink.bytes.length, k.bytes) :: asides C zw steps

/-- `file` from position `start` on, with each of the pieces inserted before the position given with it. -/
def spread (file : Bytes) (start : Nat) : List (Nat × Bytes) → Bytes
  | [] => file.drop start
  | (p, b) :: rest => (file.drop start).take (p - start) ++ b ++ spread file p rest

end AsyncZip.Spec
