import Verif.Spec.Independent
import Verif.Spec.Visits
/-!
# A reader that goes through an archive from front to back, written from the ZIP specification alone

Not a model of anything in the crate: what other software does with an archive that comes from a pipe, going by APPNOTE 4.3.7 to
4.3.9 and 4.5.3. It does not see the directory before it has seen the entries, so it goes by the local headers, and by the data
descriptors behind the data where there are any. Decompressing is given: `C.decode`.
-/

namespace AsyncZip.Spec

/-- What a local header, the data behind it and its data descriptor say about an entry. -/
structure Part where
  name : List UInt8
  method : Compression
  time : Nat
  date : Nat
  crc : Nat
  us : Nat
  cs : Nat
  /-- The blocks of the extra field. -/
  extra : List (Nat × List UInt8)
  /-- Checksum and sizes come from a data descriptor. -/
  described : Bool
  /-- Decompressed. -/
  content : List UInt8
deriving DecidableEq

/-- The method with this number (4.4.5). -/
def methodOf (v : Nat) : Option Compression := (methodTable.find? fun p => p.2 = v).map Prod.fst

/-- The sizes in the data descriptor have eight bytes if there is a ZIP64 field in the local header, and four if not
(4.3.9.1, 4.3.9.2). -/
def descriptorWidth (blocks : List (Nat × List UInt8)) : Nat := if blocks.any fun b => b.1 = 1 then 8 else 4

/-- Where the checksum in the data descriptor at `q` is: its signature is optional (4.3.9.3). -/
def descriptorBody (data : List UInt8) (q : Nat) : Nat := if OccursAt data sigDescriptor q then q + 4 else q

/-- The entry whose local header is at `pos`, and where it ends. Data with a data descriptor behind it must be compressed, or
there is no telling where it ends; without one it has the size the header says, and the decoder must use all of it. Checksum and
sizes must be right. -/
def part (C : Codec) (data : List UInt8) (pos : Nat) : Option (Part × Nat) :=
  if ¬ (OccursAt data sigLocal pos ∧ (fieldAt data (pos + 6) 2).testBit 0 = false ∧ dataStart data pos ≤ data.length) then none
  else
    match methodOf (fieldAt data (pos + 8) 2),
      blocksOf data.length (window data (pos + 30 + fieldAt data (pos + 26) 2) (fieldAt data (pos + 28) 2)) with
    | some m, some blocks =>
      let start := dataStart data pos
      let shown (crc us cs : Nat) (described : Bool) (content : List UInt8) : Part :=
        { name := window data (pos + 30) (fieldAt data (pos + 26) 2), method := m, time := fieldAt data (pos + 10) 2,
          date := fieldAt data (pos + 12) 2, crc, us, cs, extra := blocks, described, content }
      if (fieldAt data (pos + 6) 2).testBit 3 then
        if m = .stored then none
        else
          let r := C.decode m (data.drop start)
          let q := descriptorBody data (start + r.used)
          let w := descriptorWidth blocks
          if r.ok = true ∧ q + 4 + 2 * w ≤ data.length ∧ fieldAt data q 4 = (crc32 r.out).toNat ∧
              fieldAt data (q + 4) w = r.used ∧ fieldAt data (q + 4 + w) w = r.out.length then
            some (shown (crc32 r.out).toNat r.out.length r.used true r.out, q + 4 + 2 * w)
          else none
      else
        let us := trueValue (fieldAt data (pos + 22) 4) (zip64Content blocks) 0
        let cs := trueValue (fieldAt data (pos + 18) 4) (zip64Content blocks) (room (fieldAt data (pos + 22) 4))
        let r := entryData C m data start cs
        if start + cs ≤ data.length ∧ r.ok = true ∧ r.used = cs ∧ r.out.length = us ∧
            fieldAt data (pos + 14) 4 = (crc32 r.out).toNat then
          some (shown (crc32 r.out).toNat us cs false r.out, start + cs)
        else none
    | _, _ => none

/-- The entries from `pos` to the directory, of which there are at most `n`. -/
def parts (C : Codec) (data : List UInt8) : Nat → Nat → Option (List Part)
  | 0, _ => none
  | n + 1, pos =>
    if OccursAt data sigCentral pos then some []
    else
      match part C data pos with
      | none => none
      | some (p, pos') => (parts C data n pos').map (p :: ·)

/-- The entries of an archive that is read from front to back. No entry is shorter than a local header. An archive without
entries begins with its end records. -/
def sequential (C : Codec) (data : List UInt8) : Option (List Part) :=
  if OccursAt data sigEnd 0 ∨ OccursAt data sigZip64End 0 then some [] else parts C data (data.length + 1) 0

/-- What the writer must have recorded, for the entry to be read in sequence: the true size of the data; and, if it was
streamed, no ZIP64 field, a method that marks the end of the data, and compressed and uncompressed size being equal, for the
writer puts each in the place of the other. -/
def InSequence (force : Bool) (l : Listing) (d : List UInt8) : Prop :=
  l.us.toNat = d.length ∧ (l.streamed = true → force = true ∧ l.entry.compression ≠ .stored ∧ l.stored.length = d.length)

/-- The part is what the program wrote. -/
structure ShowsPart (l : Listing) (d : List UInt8) (p : Part) : Prop where
  name : p.name = l.entry.filename.basic
  method : p.method = l.entry.compression
  time : p.time = l.entry.lastModificationDate.time.toNat
  date : p.date = l.entry.lastModificationDate.date.toNat
  crc : p.crc = (crc32 d).toNat
  us : p.us = d.length
  cs : p.cs = l.stored.length
  described : p.described = l.streamed
  content : p.content = d

/-- The streaming reader shows the part; checksum and sizes only if they are known before the data. -/
structure NextMatches (p : Part) (e : ZipEntry) : Prop where
  name : e.filename.alternative.getD e.filename.raw = p.name
  method : e.compression = p.method
  time : e.lastModificationDate.time.toNat = p.time
  date : e.lastModificationDate.date.toNat = p.date
  described : e.dataDescriptor = p.described
  crc : p.described = false → e.crc32.toNat = p.crc
  us : p.described = false → e.uncompressedSize.toNat = p.us
  cs : p.described = false → e.compressedSize.toNat = p.cs

end AsyncZip.Spec
