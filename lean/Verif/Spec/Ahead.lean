import Verif.Spec.CutStream
/-!
# What lies ahead of a stream
-/

namespace AsyncZip.Spec

/-- Two sources, in the middle of their files: from where they stand they have the same bytes and answer alike. -/
structure SameAhead (s t : RState) : Prop where
  bytes : s.data.drop s.pos = t.data.drop t.pos
  answers : s.sched = t.sched

/-- Two files, of the same length, that differ at most from `lo` up to, but not including, `hi`. -/
structure SameOutside (x y : List UInt8) (lo hi : Nat) : Prop where
  length : x.length = y.length
  before : x.take lo = y.take lo
  after : x.drop hi = y.drop hi

end AsyncZip.Spec
