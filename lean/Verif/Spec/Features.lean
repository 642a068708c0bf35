import Verif.Model.Features
/-!
# Which methods a build has
-/

namespace AsyncZip.Spec

/-- The build has this method. -/
def Features.Has (F : Features) : Compression → Prop
  | .stored => True
  | .deflate => F.deflate = true
  | .deflate64 => F.deflate64 = true
  | .bz => F.bzip2 = true
  | .lzma => F.lzma = true
  | .zstd => F.zstd = true
  | .xz => F.xz = true

/-- All methods, and none. -/
def allFeatures : Features := ⟨true, true, true, true, true, true⟩
def noFeatures : Features := ⟨false, false, false, false, false, false⟩

/-- `v` names a method that the crate has, but not this build. -/
def Lacks (F : Features) (v : UInt16) : Prop := ∃ m : Compression, v = m.toU16 ∧ ¬ Features.Has F m

/-- The number of the first of these methods that the build lacks is `v`. -/
def FirstLacking (F : Features) (ms : List Compression) (v : UInt16) : Prop :=
  ∃ before m after, ms = before ++ m :: after ∧ (∀ x ∈ before, Features.Has F x) ∧ ¬ Features.Has F m ∧ v = m.toU16

end AsyncZip.Spec
