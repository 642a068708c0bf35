import Verif.Model.Sessions
/-!
# What counts when entries are read through an index
-/

namespace AsyncZip.Spec

/-- Where the entry is, how long what is stored of it, and how it is compressed. -/
def Access (e : StoredZipEntry) : Nat × UInt64 × Compression := (e.fileOffset, e.entry.compressedSize, e.entry.compression)

/-- The calls saw the same, except for the metadata of entries. -/
inductive AlikeSeen : Seen → Seen → Prop where
  | opened (e e' : ZipEntry) : AlikeSeen (.opened e) (.opened e')
  | same (x : Seen) : AlikeSeen x x

end AsyncZip.Spec
