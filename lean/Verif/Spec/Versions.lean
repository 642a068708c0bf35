import Verif.Spec.Local
import Verif.Spec.Metadata
/-!
# What an archive says about versions (APPNOTE 4.4.2, 4.4.3)
-/

namespace AsyncZip.Spec

/-- Host system 3 (Unix) in the upper byte, specification 6.3 in the lower. -/
def unixMadeBy : Nat := 3 * 256 + 63

/-- The versions that the directory record at `j` and the local header at `off` give. -/
structure Versioned (data : List UInt8) (off j : Nat) (e : ZipEntry) : Prop where
  madeBy : fieldAt data (j + 4) 2 = unixMadeBy
  same : fieldAt data (off + 4) 2 = fieldAt data (j + 6) 2
  method : methodVersion e.compression ≤ fieldAt data (j + 6) 2
  least : 10 ≤ fieldAt data (j + 6) 2
  most : fieldAt data (j + 6) 2 ≤ 63
  directory : e.filename.encoding = .utf8 → NamesDirectory e.filename.raw → 20 ≤ fieldAt data (j + 6) 2

/-- The record at `j` has a ZIP64 field, for which a reader has to know version 4.5. -/
def HasZip64 (data : List UInt8) (j : Nat) : Prop :=
  ∃ blocks, Blocks (window data (j + 46 + fieldAt data (j + 28) 2) (fieldAt data (j + 30) 2)) blocks [] ∧ ∃ b ∈ blocks, b.1 = 1

end AsyncZip.Spec
