import Verif.Spec.Visits
/-!
# Two readers, one entry
-/

namespace AsyncZip.Spec
open Rd

/-- The streaming reader shows as `e` what the directory lists as `x`. Checksum and sizes of an entry with a data descriptor
are not known to the streaming reader in advance. -/
structure SeenAlike (x e : ZipEntry) : Prop where
  name : e.filename = x.filename
  method : e.compression = x.compression
  date : e.lastModificationDate = x.lastModificationDate
  descriptor : e.dataDescriptor = x.dataDescriptor
  crc : x.dataDescriptor = false → e.crc32 = x.crc32
  us : x.dataDescriptor = false → e.uncompressedSize = x.uncompressedSize
  cs : x.dataDescriptor = false → e.compressedSize = x.compressedSize

end AsyncZip.Spec
