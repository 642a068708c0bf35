import Verif.Spec.Archive
/-!
# Which files can be opened, read off the bytes (APPNOTE 4.3.7, 4.3.12, 4.3.14-4.3.16, 4.4, 4.6.8, 4.6.9)

Nothing here refers to the reader.
-/

namespace AsyncZip.Spec

/-- An Info-ZIP Unicode field has a version and, if that is 1, a checksum (APPNOTE 4.6.8, 4.6.9). Nothing is asked of the
other fields. -/
def CompleteField (block : Nat × List UInt8) : Prop :=
  block.1 = 0x6375 ∨ block.1 = 0x7075 → block.2 ≠ [] ∧ (block.2.head? = some 1 → 5 ≤ block.2.length)

/-- The extra field `x` is a sequence of complete blocks, up to a rest of at most four bytes. -/
def GoodExtra (x : List UInt8) : Prop :=
  ∃ blocks tail, Blocks x blocks tail ∧ tail.length ≤ 4 ∧ ∀ block ∈ blocks, CompleteField block

/-- There is a directory record at `off`, of a known method and with a good extra field. -/
structure GoodRecord (data : List UInt8) (off : Nat) : Prop where
  fits : off + 46 ≤ data.length
  signature : OccursAt data sigCentral off
  method : ∃ c, (c, fieldAt data (off + 10) 2) ∈ methodTable
  extra : GoodExtra (window data (off + 46 + fieldAt data (off + 28) 2) (fieldAt data (off + 30) 2))

/-- There are `n` good records one after the other, the first at `off`. -/
inductive GoodRecords (data : List UInt8) : Nat → Nat → Prop
  | nil (off : Nat) : GoodRecords data off 0
  | cons (off n : Nat) (h : GoodRecord data off) (hs : GoodRecords data (off + recordLength data off) n) :
      GoodRecords data off (n + 1)

/-- How far from the end the signature of the end record is looked for: the longest comment allows for 65557 bytes, and the
search goes on to the end of its last buffer. -/
def reach : Nat := 67456

/-- The file can be opened: its last end record is complete and not too far from the end, the ZIP64 end record, if there
is a locator, is in the file, the archive is not split, the number of entries is no larger than `most`, and there are that
many good records where the directory starts. -/
structure Openable (most : Nat) (data : List UInt8) (j : Nat) : Prop where
  last : LastEnd data j
  near : data.length ≤ j + reach
  complete : j + 22 ≤ data.length
  zip64 : HasLocator data j → zip64End data j + 56 ≤ data.length
  disks : declaredDisk data j = declaredStartDisk data j
  whole : declaredEntries data j = declaredEntriesOnDisk data j
  count : declaredEntries data j ≤ most
  records : GoodRecords data (declaredOffset data j) (declaredEntries data j)

/-- There is a local header at `pos` that can be read from a stream: of a known method, not encrypted, not stored with a data
descriptor, and with a good extra field. -/
structure GoodHeader (data : List UInt8) (pos : Nat) : Prop where
  fits : pos + 30 ≤ data.length
  signature : OccursAt data sigLocal pos
  plain : (fieldAt data (pos + 6) 2).testBit 0 = false
  method : ∃ c, (c, fieldAt data (pos + 8) 2) ∈ methodTable
  bounded : ¬ ((fieldAt data (pos + 6) 2).testBit 3 = true ∧ fieldAt data (pos + 8) 2 = 0)
  extra : GoodExtra (window data (pos + 30 + fieldAt data (pos + 26) 2) (fieldAt data (pos + 28) 2))

/-- The entry `e` carries what the local header at `pos` says. -/
structure HeaderAt (data : List UInt8) (pos : Nat) (e : ZipEntry) : Prop where
  method : (e.compression, fieldAt data (pos + 8) 2) ∈ methodTable
  dataDescriptor : e.dataDescriptor = (fieldAt data (pos + 6) 2).testBit 3
  time : e.lastModificationDate.time.toNat = fieldAt data (pos + 10) 2
  date : e.lastModificationDate.date.toNat = fieldAt data (pos + 12) 2
  crc : e.crc32.toNat = fieldAt data (pos + 14) 4
  attributes : e.internalFileAttribute = 0 ∧ e.externalFileAttribute = 0
  name : e.filename.alternative.getD e.filename.raw = window data (pos + 30) (fieldAt data (pos + 26) 2)
  comment : e.comment.alternative.getD e.comment.raw = []
  extra : ∃ blocks tail,
    Blocks (window data (pos + 30 + fieldAt data (pos + 26) 2) (fieldAt data (pos + 28) 2)) blocks tail ∧ tail.length ≤ 4
      ∧ List.Forall₂ Represents e.extraFields blocks
  sizes : (∀ f, ExtraField.zip64 f ∉ e.extraFields) →
    e.compressedSize.toNat = fieldAt data (pos + 18) 4 ∧ e.uncompressedSize.toNat = fieldAt data (pos + 22) 4
  zip64 : ∀ pre f post, e.extraFields = pre ++ ExtraField.zip64 f :: post → (∀ g, ExtraField.zip64 g ∉ pre) →
    e.compressedSize.toNat = (f.compressedSize.map UInt64.toNat).getD (fieldAt data (pos + 18) 4) ∧
    e.uncompressedSize.toNat = (f.uncompressedSize.map UInt64.toNat).getD (fieldAt data (pos + 22) 4)
  /-- In terms of the bytes: 64-bit sizes from the first ZIP64 field where the header's are saturated. -/
  values : ∃ blocks tail,
    Blocks (window data (pos + 30 + fieldAt data (pos + 26) 2) (fieldAt data (pos + 28) 2)) blocks tail ∧ tail.length ≤ 4 ∧
      e.uncompressedSize.toNat = trueValue (fieldAt data (pos + 22) 4) (zip64Content blocks) 0 ∧
      e.compressedSize.toNat =
        trueValue (fieldAt data (pos + 18) 4) (zip64Content blocks) (room (fieldAt data (pos + 22) 4))

end AsyncZip.Spec
