import Verif.Spec.RoundTrip
/-!
# What the bytes of a written archive should say (APPNOTE 4.3.12, 4.3.14-4.3.16, 4.5.3)

Read off the bytes by offset, without the crate's reader.
-/

namespace AsyncZip.Spec

/-- PK 6 6. -/
def sigZip64End : List UInt8 := [0x50, 0x4B, 0x06, 0x06]

/-- The central directory records start at these positions, one after the other, and end at `stop`. -/
inductive Positions (data : List UInt8) : Nat → List Nat → Nat → Prop where
  | nil (j : Nat) : Positions data j [] j
  | cons (j : Nat) (js : List Nat) (stop : Nat) (h : OccursAt data sigCentral j)
      (hs : Positions data (j + recordLength data j) js stop) : Positions data j (j :: js) stop

/-- The record at `j` gives these values for the sizes and the offset of the local header. -/
def Declares (data : List UInt8) (j us cs off : Nat) : Prop :=
  let u := fieldAt data (j + 24) 4
  let c := fieldAt data (j + 20) 4
  ∃ blocks, Blocks (window data (j + 46 + fieldAt data (j + 28) 2) (fieldAt data (j + 30) 2)) blocks [] ∧
    us = trueValue u (zip64Content blocks) 0 ∧ cs = trueValue c (zip64Content blocks) (room u) ∧
    off = trueValue (fieldAt data (j + 42) 4) (zip64Content blocks) (room u + room c)

/-- The record at `j` describes the entry `l` whose local header is at `off`. -/
structure Describes32 (data : List UInt8) (j : Nat) (l : Listing) : Prop where
  name : window data (j + 46) (fieldAt data (j + 28) 2) = l.entry.filename.basic
  comment : window data (j + 46 + fieldAt data (j + 28) 2 + fieldAt data (j + 30) 2) (fieldAt data (j + 32) 2) =
    l.entry.comment.basic
  descriptor : (fieldAt data (j + 8) 2).testBit 3 = l.streamed
  method : (l.entry.compression, fieldAt data (j + 10) 2) ∈ methodTable
  time : fieldAt data (j + 12) 2 = l.entry.lastModificationDate.time.toNat
  date : fieldAt data (j + 14) 2 = l.entry.lastModificationDate.date.toNat
  crc : fieldAt data (j + 16) 4 = l.crc.toNat
  disk : fieldAt data (j + 34) 2 = 0
  internal : fieldAt data (j + 36) 2 = l.entry.internalFileAttribute.toNat
  external : fieldAt data (j + 38) 4 = l.entry.externalFileAttribute.toNat

/-- The end record at `j`. -/
structure EndAt (data : List UInt8) (j n size off : Nat) (comment : List UInt8) : Prop where
  signature : OccursAt data sigEnd j
  disk : fieldAt data (j + 4) 2 = 0 ∧ fieldAt data (j + 6) 2 = 0
  entries : fieldAt data (j + 8) 2 = min n 0xFFFF ∧ fieldAt data (j + 10) 2 = min n 0xFFFF
  size : fieldAt data (j + 12) 4 = min size 0xFFFFFFFF
  offset : fieldAt data (j + 16) 4 = min off 0xFFFFFFFF
  comment : fieldAt data (j + 20) 2 = comment.length ∧ data.drop (j + 22) = comment

/-- The ZIP64 end record at `k`, and its locator 56 bytes later. -/
structure Zip64EndAt (data : List UInt8) (k n size off : Nat) : Prop where
  signature : OccursAt data sigZip64End k
  length : fieldAt data (k + 4) 8 = 44
  disk : fieldAt data (k + 16) 4 = 0 ∧ fieldAt data (k + 20) 4 = 0
  entries : fieldAt data (k + 24) 8 = n ∧ fieldAt data (k + 32) 8 = n
  size : fieldAt data (k + 40) 8 = size
  offset : fieldAt data (k + 48) 8 = off
  locator : OccursAt data sigLocator (k + 56)
  points : fieldAt data (k + 56 + 8) 8 = k
  disks : fieldAt data (k + 56 + 4) 4 = 0 ∧ fieldAt data (k + 56 + 16) 4 = 1

/-- The directory is at `dir`, its records start at `js`, it ends at `stop`, and after it come only the end records and the
comment. -/
structure DirectoryOf (data : List UInt8) (zip64 : Bool) (comment : List UInt8) (dir stop : Nat) (js : List Nat) : Prop where
  records : Positions data dir js stop
  last : stop + (if zip64 then 76 else 0) + 22 + comment.length = data.length

end AsyncZip.Spec
