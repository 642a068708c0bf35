import Mathlib.Data.List.Forall2
import Verif.Spec.Extra
import Verif.Spec.Metadata
/-!
# Specification of what an archive's bytes declare (APPNOTE 4.3.12, 4.3.14-4.3.16)

Read directly off the bytes, by offset, independently of the reader.
-/

namespace AsyncZip.Spec

/-- PK 1 2. -/
def sigCentral : List UInt8 := [0x50, 0x4B, 0x01, 0x02]
/-- PK 3 4. -/
def sigLocal : List UInt8 := [0x50, 0x4B, 0x03, 0x04]
/-- PK 5 6. -/
def sigEnd : List UInt8 := [0x50, 0x4B, 0x05, 0x06]
/-- PK 6 7. -/
def sigLocator : List UInt8 := [0x50, 0x4B, 0x06, 0x07]

/-- `j` is where the last end-of-central-directory signature starts. -/
def LastEnd (data : List UInt8) (j : Nat) : Prop :=
  OccursAt data sigEnd j ∧ ∀ j', OccursAt data sigEnd j' → j' ≤ j

/-- The 20 bytes before the end record at `j` are a ZIP64 locator. -/
def HasLocator (data : List UInt8) (j : Nat) : Prop := 20 ≤ j ∧ OccursAt data sigLocator (j - 20)

instance (data : List UInt8) (j : Nat) : Decidable (HasLocator data j) := by
  unfold HasLocator OccursAt; infer_instance

/-- Where the ZIP64 end record is, according to the locator. -/
def zip64End (data : List UInt8) (j : Nat) : Nat := fieldAt data (j - 20 + 8) 8

/-- A value declared by the end records: the `w`-byte classic field at `off`, or, if that is saturated and there is a
locator, the field of width `w'` at `off'` of the ZIP64 end record. -/
def declared (data : List UInt8) (j off w off' w' : Nat) : Nat :=
  if HasLocator data j ∧ fieldAt data (j + off) w = 256 ^ w - 1 then fieldAt data (zip64End data j + off') w'
  else fieldAt data (j + off) w

/-- Number of this disk. -/
def declaredDisk (data : List UInt8) (j : Nat) : Nat := declared data j 4 2 16 4
/-- Disk on which the directory starts. -/
def declaredStartDisk (data : List UInt8) (j : Nat) : Nat := declared data j 6 2 20 4
/-- Entries on this disk. -/
def declaredEntriesOnDisk (data : List UInt8) (j : Nat) : Nat := declared data j 8 2 24 8
/-- Entries in total. -/
def declaredEntries (data : List UInt8) (j : Nat) : Nat := declared data j 10 2 32 8
/-- Offset of the central directory. -/
def declaredOffset (data : List UInt8) (j : Nat) : Nat := declared data j 16 4 48 8

/-- At most `n` bytes of `data` from `off`. -/
def window (data : List UInt8) (off n : Nat) : List UInt8 := (data.drop off).take n

/-- Length of the central directory record at `off`. -/
def recordLength (data : List UInt8) (off : Nat) : Nat :=
  46 + fieldAt data (off + 28) 2 + fieldAt data (off + 30) 2 + fieldAt data (off + 32) 2

/-- The content of the first ZIP64 block, if there is one. -/
def zip64Content (blocks : List (Nat × List UInt8)) : List UInt8 := ((blocks.find? fun b => b.1 == 1).map Prod.snd).getD []

/-- The true value of a 32-bit field `v` whose 64-bit value, if `v` is saturated, is at `i` of the ZIP64 content. -/
def trueValue (v : Nat) (content : List UInt8) (i : Nat) : Nat :=
  if v = 0xFFFFFFFF ∧ i + 8 ≤ content.length then fieldAt content i 8 else v

/-- Eight bytes for a saturated value (APPNOTE 4.5.3: only values whose field is saturated appear). -/
def room (v : Nat) : Nat := if v = 0xFFFFFFFF then 8 else 0

/-- The entry `e` carries what the central directory record at `off` says. -/
structure RecordAt (data : List UInt8) (off : Nat) (e : StoredZipEntry) : Prop where
  fits : off + 46 ≤ data.length
  signature : OccursAt data sigCentral off
  method : (e.entry.compression, fieldAt data (off + 10) 2) ∈ methodTable
  dataDescriptor : e.entry.dataDescriptor = (fieldAt data (off + 8) 2).testBit 3
  time : e.entry.lastModificationDate.time.toNat = fieldAt data (off + 12) 2
  date : e.entry.lastModificationDate.date.toNat = fieldAt data (off + 14) 2
  crc : e.entry.crc32.toNat = fieldAt data (off + 16) 4
  internal : e.entry.internalFileAttribute.toNat = fieldAt data (off + 36) 2
  external : e.entry.externalFileAttribute.toNat = fieldAt data (off + 38) 4
  name : e.entry.filename.alternative.getD e.entry.filename.raw = window data (off + 46) (fieldAt data (off + 28) 2)
  extra : ∃ blocks tail,
    Blocks (window data (off + 46 + fieldAt data (off + 28) 2) (fieldAt data (off + 30) 2)) blocks tail ∧ tail.length ≤ 4
      ∧ List.Forall₂ Represents e.entry.extraFields blocks
  comment : e.entry.comment.alternative.getD e.entry.comment.raw
    = window data (off + 46 + fieldAt data (off + 28) 2 + fieldAt data (off + 30) 2) (fieldAt data (off + 32) 2)
  /-- 32-bit values hold when there is no ZIP64 field. -/
  sizes : (∀ f, ExtraField.zip64 f ∉ e.entry.extraFields) →
    e.entry.compressedSize.toNat = fieldAt data (off + 20) 4 ∧ e.entry.uncompressedSize.toNat = fieldAt data (off + 24) 4
      ∧ e.fileOffset = fieldAt data (off + 42) 4
  /-- Otherwise what the first ZIP64 field carries (C07 ties that to its bytes) replaces saturated values. -/
  zip64 : ∀ pre f post, e.entry.extraFields = pre ++ ExtraField.zip64 f :: post → (∀ g, ExtraField.zip64 g ∉ pre) →
    e.entry.compressedSize.toNat = (f.compressedSize.map UInt64.toNat).getD (fieldAt data (off + 20) 4) ∧
    e.entry.uncompressedSize.toNat = (f.uncompressedSize.map UInt64.toNat).getD (fieldAt data (off + 24) 4) ∧
    e.fileOffset = if fieldAt data (off + 42) 4 = 2 ^ 32 - 1
      then (f.relativeHeaderOffset.map UInt64.toNat).getD (fieldAt data (off + 42) 4) else fieldAt data (off + 42) 4
  /-- In terms of the bytes: 64-bit values from the first ZIP64 field where the record's value is saturated. -/
  values : ∃ blocks tail,
    Blocks (window data (off + 46 + fieldAt data (off + 28) 2) (fieldAt data (off + 30) 2)) blocks tail ∧ tail.length ≤ 4 ∧
      e.entry.uncompressedSize.toNat = trueValue (fieldAt data (off + 24) 4) (zip64Content blocks) 0 ∧
      e.entry.compressedSize.toNat =
        trueValue (fieldAt data (off + 20) 4) (zip64Content blocks) (room (fieldAt data (off + 24) 4)) ∧
      e.fileOffset = trueValue (fieldAt data (off + 42) 4) (zip64Content blocks)
        (room (fieldAt data (off + 24) 4) + room (fieldAt data (off + 20) 4))
  headerSize : e.headerSize = 30 + fieldAt data (off + 28) 2 + fieldAt data (off + 30) 2

/-- The entries are the consecutive records from `off` on. -/
inductive Records (data : List UInt8) : Nat → List StoredZipEntry → Prop
  | nil (off : Nat) : Records data off []
  | cons (off : Nat) (e : StoredZipEntry) (es : List StoredZipEntry) (h : RecordAt data off e)
      (hs : Records data (off + recordLength data off) es) : Records data off (e :: es)

end AsyncZip.Spec
