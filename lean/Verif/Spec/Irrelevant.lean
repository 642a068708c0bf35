import Verif.Spec.Written
/-!
# What an archive does not depend on
-/

namespace AsyncZip.Spec

/-- The two entries have the same name, comment, method, date, attributes and extra fields. They may differ in checksum, sizes,
compression level, attribute compatibility and the mark for a data descriptor. -/
structure SameFace (e e' : ZipEntry) : Prop where
  filename : e.filename = e'.filename
  comment : e.comment = e'.comment
  compression : e.compression = e'.compression
  date : e.lastModificationDate = e'.lastModificationDate
  internal : e.internalFileAttribute = e'.internalFileAttribute
  external : e.externalFileAttribute = e'.externalFileAttribute
  extraFields : e.extraFields = e'.extraFields

/-- The two calls write the same. Of an entry written whole the writer works out checksum and sizes itself; of data compressed by
the caller, the compressed size; of a stream, all of them, but what the caller said goes into the local header. The level only
matters for what is compressed in one piece. -/
inductive Alike : Op → Op → Prop where
  | comment (c : RString) : Alike (.comment c) (.comment c)
  | whole {e e' : ZipEntry} (d : List UInt8) (evs : List Ev) (h : SameFace e e')
      (hl : e.compression ≠ .stored → e.compressionLevel = e'.compressionLevel) :
      Alike (.whole e d false evs) (.whole e' d false evs)
  | ready {e e' : ZipEntry} (d : List UInt8) (evs : List Ev) (h : SameFace e e') (hcrc : e.crc32 = e'.crc32)
      (hus : e.uncompressedSize = e'.uncompressedSize) : Alike (.whole e d true evs) (.whole e' d true evs)
  | stream {e e' : ZipEntry} (pre : Bool) (evs : List Ev) (acts : List StreamAct) (fin : StreamEnd) (h : SameFace e e')
      (hcrc : e.crc32 = e'.crc32) (hus : e.uncompressedSize = e'.uncompressedSize)
      (hcs : e.compressedSize = e'.compressedSize) : Alike (.stream e pre evs acts fin) (.stream e' pre evs acts fin)

end AsyncZip.Spec
