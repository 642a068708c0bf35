import Verif.Spec.Reading
/-!
# Where an entry is stored
-/

namespace AsyncZip.Spec

/-- The two archives agree where this entry is stored: its local header, name, extra field and declared data. -/
def SameRegion (a b : List UInt8) (e : StoredZipEntry) : Prop :=
  let n := 30 + fieldAt a (e.fileOffset + 26) 2 + fieldAt a (e.fileOffset + 28) 2 + e.entry.compressedSize.toNat
  window a e.fileOffset n = window b e.fileOffset n

/-- The two archives agree on what a seekable reader needs to know of this entry: that a header is there (its signature and
its 30 bytes), the two lengths in it, and the declared data. -/
structure SameData (a b : List UInt8) (e : StoredZipEntry) : Prop where
  signature : window a e.fileOffset 4 = window b e.fileOffset 4
  present : (window a e.fileOffset 30).length = (window b e.fileOffset 30).length
  lengths : window a (e.fileOffset + 26) 4 = window b (e.fileOffset + 26) 4
  data : window a (dataStart a e.fileOffset) e.entry.compressedSize.toNat =
    window b (dataStart a e.fileOffset) e.entry.compressedSize.toNat

end AsyncZip.Spec
