import Verif.Spec.RoundTrip
/-!
# Setting the comment of an archive at any time
-/

namespace AsyncZip.Spec

/-- The calls but for those that set the comment. -/
def uncommented : List Op → List Op
  | [] => []
  | .comment _ :: ops => uncommented ops
  | op :: ops => op :: uncommented ops

/-- What the calls reported but for those that set the comment, which have nothing to report. -/
def reports : List OpResult → List OpResult
  | [] => []
  | .comment :: rs => reports rs
  | r :: rs => r :: reports rs

/-- The two archives agree up to the last field of the end record, which is the length of the comment, on 16 bits; then comes the
comment. -/
def CommentApart (a b c d : List UInt8) : Prop :=
  ∃ front, a = front ++ ([UInt8.ofNat c.length, UInt8.ofNat (c.length / 256)] ++ c) ∧
    b = front ++ ([UInt8.ofNat d.length, UInt8.ofNat (d.length / 256)] ++ d)

end AsyncZip.Spec
