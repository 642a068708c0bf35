import Verif.Spec.Directory
import Verif.Spec.Local
import Verif.Spec.Openable
/-!
# A reader written from the ZIP specification alone

Not a model of anything in the crate: what other software does with an archive, going by APPNOTE 4.3 and 4.5 and by nothing the
crate does. It finds the last end record, follows it to the directory, and for every record of the directory goes to the local
header, which it compares with the record before it believes either.
-/

namespace AsyncZip.Spec

/-- The last end record (4.3.6, 4.3.16), looked for from `n` downwards. -/
def lastEndBelow (data : List UInt8) : Nat → Option Nat
  | 0 => none
  | n + 1 => if OccursAt data sigEnd n then some n else lastEndBelow data n

/-- The blocks an extra field consists of (4.5.1); `none` if it does not. -/
def blocksOf : Nat → List UInt8 → Option (List (Nat × List UInt8))
  | _, [] => some []
  | 0, _ :: _ => none
  | n + 1, b :: bs =>
    if 4 + fieldAt (b :: bs) 2 2 ≤ (b :: bs).length then
      (blocksOf n ((b :: bs).drop (4 + fieldAt (b :: bs) 2 2))).map
        ((fieldAt (b :: bs) 0 2, ((b :: bs).drop 4).take (fieldAt (b :: bs) 2 2)) :: ·)
    else none

/-- What there is to know about an entry. -/
structure Item where
  name : List UInt8
  comment : List UInt8
  method : Nat
  time : Nat
  date : Nat
  crc : Nat
  us : Nat
  cs : Nat
  internal : Nat
  external : Nat
  /-- The blocks of the extra field of the directory record. -/
  extra : List (Nat × List UInt8)
  /-- As stored, that is, compressed if the method says so. -/
  stored : List UInt8
deriving DecidableEq

/-- The local header at `off` agrees with the directory record at `j`, which gives these sizes: version, flags, method, time and
date, which stand in both one after the other; the name; and, unless they follow in a data descriptor (4.4.4, bit 3), the
checksum and the sizes. A data descriptor has the checksum too (4.3.9). -/
def agrees (data : List UInt8) (j off us cs : Nat) (content : List UInt8) : Bool :=
  decide (window data (off + 4) 10 = window data (j + 6) 10) &&
  decide (window data (off + 30) (fieldAt data (off + 26) 2) = window data (j + 46) (fieldAt data (j + 28) 2)) &&
  if (fieldAt data (off + 6) 2).testBit 3 then
    decide (OccursAt data sigDescriptor (dataStart data off + cs)) &&
    decide (fieldAt data (dataStart data off + cs + 4) 4 = fieldAt data (j + 16) 4)
  else
    decide (fieldAt data (off + 14) 4 = fieldAt data (j + 16) 4) &&
    decide (trueValue (fieldAt data (off + 22) 4) content 0 = us) &&
    decide (trueValue (fieldAt data (off + 18) 4) content (room (fieldAt data (off + 22) 4)) = cs)

/-- The entry whose directory record is at `j` (4.3.12) and whose sizes and offset are these. -/
def itemAt (data : List UInt8) (j us cs off : Nat) (extra : List (Nat × List UInt8)) : Option Item :=
  if OccursAt data sigLocal off ∧ dataStart data off + cs ≤ data.length then
    match blocksOf data.length (window data (off + 30 + fieldAt data (off + 26) 2) (fieldAt data (off + 28) 2)) with
    | none => none
    | some blocks =>
      if agrees data j off us cs (zip64Content blocks) then
        some {
          name := window data (j + 46) (fieldAt data (j + 28) 2)
          comment := window data (j + 46 + fieldAt data (j + 28) 2 + fieldAt data (j + 30) 2) (fieldAt data (j + 32) 2)
          method := fieldAt data (j + 10) 2
          time := fieldAt data (j + 12) 2
          date := fieldAt data (j + 14) 2
          crc := fieldAt data (j + 16) 4
          us := us
          cs := cs
          internal := fieldAt data (j + 36) 2
          external := fieldAt data (j + 38) 4
          extra := extra
          stored := window data (dataStart data off) cs }
      else none
  else none

/-- The entry whose directory record is at `j`, with the values of its ZIP64 field in place of saturated ones (4.5.3). -/
def item (data : List UInt8) (j : Nat) : Option Item :=
  if OccursAt data sigCentral j ∧ fieldAt data (j + 34) 2 = 0 then
    match blocksOf data.length (window data (j + 46 + fieldAt data (j + 28) 2) (fieldAt data (j + 30) 2)) with
    | none => none
    | some blocks =>
      itemAt data j (trueValue (fieldAt data (j + 24) 4) (zip64Content blocks) 0)
        (trueValue (fieldAt data (j + 20) 4) (zip64Content blocks) (room (fieldAt data (j + 24) 4)))
        (trueValue (fieldAt data (j + 42) 4) (zip64Content blocks)
          (room (fieldAt data (j + 24) 4) + room (fieldAt data (j + 20) 4))) blocks
  else none

/-- The entries whose records start at `j` and end at `stop`. -/
def items (data : List UInt8) (stop : Nat) : Nat → Nat → Option (List Item)
  | 0, j => if j = stop then some [] else none
  | n + 1, j =>
    match item data j, items data stop n (j + recordLength data j) with
    | some i, some is => some (i :: is)
    | _, _ => none

/-- Size of the central directory. -/
def declaredSize (data : List UInt8) (j : Nat) : Nat := declared data j 12 4 40 8

/-- Where the directory must end: the ZIP64 end record, if there is a locator, must reach from there to the locator (4.3.14, its
size does not count its first 12 bytes). -/
def directoryEnd (data : List UInt8) (j : Nat) : Option Nat :=
  if HasLocator data j then
    if OccursAt data sigZip64End (zip64End data j) ∧ 44 ≤ fieldAt data (zip64End data j + 4) 8 ∧
        zip64End data j + 12 + fieldAt data (zip64End data j + 4) 8 + 20 = j then some (zip64End data j)
    else none
  else some j

/-- An archive's entries and its comment. The directory must end where the end records begin, and the comment with the file. -/
def independent (data : List UInt8) : Option (List Item × List UInt8) :=
  match lastEndBelow data data.length with
  | none => none
  | some j =>
    if declaredDisk data j = 0 ∧ declaredStartDisk data j = 0 ∧ declaredEntriesOnDisk data j = declaredEntries data j ∧
        directoryEnd data j = some (declaredOffset data j + declaredSize data j) ∧
        j + 22 + fieldAt data (j + 20) 2 = data.length then
      (items data (declaredOffset data j + declaredSize data j) (declaredEntries data j) (declaredOffset data j)).map
        (·, data.drop (j + 22))
    else none

/-- The item is what the program wrote. -/
structure Shows (l : Listing) (i : Item) : Prop where
  name : i.name = l.entry.filename.basic
  comment : i.comment = l.entry.comment.basic
  method : (l.entry.compression, i.method) ∈ methodTable
  time : i.time = l.entry.lastModificationDate.time.toNat
  date : i.date = l.entry.lastModificationDate.date.toNat
  crc : i.crc = l.crc.toNat
  us : i.us = l.us.toNat
  cs : i.cs = l.stored.length
  internal : i.internal = l.entry.internalFileAttribute.toNat
  external : i.external = l.entry.externalFileAttribute.toNat
  stored : i.stored = l.stored

/-- The library supports what the entry uses: its method; and its Info-ZIP Unicode fields, if any, are complete. -/
def Supported (i : Item) : Prop := (∃ m, (m, i.method) ∈ methodTable) ∧ ∀ block ∈ i.extra, CompleteField block

/-- The library shows the item. -/
structure Matches (i : Item) (e : StoredZipEntry) : Prop where
  name : e.entry.filename.alternative.getD e.entry.filename.raw = i.name
  comment : e.entry.comment.alternative.getD e.entry.comment.raw = i.comment
  method : (e.entry.compression, i.method) ∈ methodTable
  time : e.entry.lastModificationDate.time.toNat = i.time
  date : e.entry.lastModificationDate.date.toNat = i.date
  crc : e.entry.crc32.toNat = i.crc
  us : e.entry.uncompressedSize.toNat = i.us
  cs : e.entry.compressedSize.toNat = i.cs
  internal : e.entry.internalFileAttribute.toNat = i.internal
  external : e.entry.externalFileAttribute.toNat = i.external

/-- The data of an item: its bytes as they are, or what the decoder makes of all of them. -/
def Contains (C : Codec) (i : Item) (d : List UInt8) : Prop :=
  (i.method = 0 ∧ i.stored = d) ∨
    ∃ m k, (m, i.method) ∈ methodTable ∧ m ≠ .stored ∧ C.decode m i.stored = ⟨d, k, true⟩

end AsyncZip.Spec
