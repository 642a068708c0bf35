import Verif.Model.Types
/-!
# Specification of method numbers and versions (APPNOTE 4.4.2, 4.4.3, 4.4.5)
-/

namespace AsyncZip.Spec

/-- APPNOTE 4.4.5, the methods the crate supports. -/
def methodTable : List (Compression × Nat) :=
  [(.stored, 0), (.deflate, 8), (.deflate64, 9), (.bz, 12), (.lzma, 14), (.zstd, 93), (.xz, 95)]

/-- APPNOTE 4.4.2.2, the host systems the crate supports. -/
def hostTable : List (AttributeCompatibility × Nat) := [(.unix, 3)]

/-- APPNOTE 4.4.3.2: minimum feature versions, times ten: 1.0 default, 2.0 deflate, 2.1 deflate64, 4.6 bzip2, 6.3 LZMA.
(The table names no version for zstd and xz.) -/
def methodVersion : Compression → Nat
  | .deflate => 20
  | .deflate64 => 21
  | .bz => 46
  | .lzma => 63
  | _ => 10

/-- The stored name denotes a directory: it ends with a slash. -/
def NamesDirectory (name : List UInt8) : Prop := ∃ front, name = front ++ [0x2F]

end AsyncZip.Spec
