import Verif.Spec.Written
import Verif.Spec.Reading
/-!
# What a written archive should look like to the reader
-/

namespace AsyncZip.Spec

/-- The opened archive shows the entry `l`, whose local header is at `off`, as `e`. -/
structure ReadAs (force : Bool) (off : Nat) (l : Listing) (e : StoredZipEntry) : Prop where
  name : e.entry.filename.basic = l.entry.filename.basic
  comment : e.entry.comment.basic = l.entry.comment.basic
  method : e.entry.compression = l.entry.compression
  date : e.entry.lastModificationDate = l.entry.lastModificationDate
  internal : e.entry.internalFileAttribute = l.entry.internalFileAttribute
  external : e.entry.externalFileAttribute = l.entry.externalFileAttribute
  crc : e.entry.crc32 = l.crc
  us : e.entry.uncompressedSize = (l.recorded force).1
  cs : e.entry.compressedSize = (l.recorded force).2
  descriptor : e.entry.dataDescriptor = l.streamed
  offset : e.fileOffset = off

/-- A whole entry beyond 4 GiB gets a ZIP64 field with only the offset, which is misread if one of its sizes happens to be
0xFFFFFFFF (`src/spec/extra_field.rs:166-188`). -/
def Clash (off : Nat) (l : Listing) : Prop :=
  l.streamed = false ∧ 0xFFFFFFFF < off ∧ l.us ≤ 0xFFFFFFFF ∧ l.cs ≤ 0xFFFFFFFF ∧ (l.us = 0xFFFFFFFF ∨ l.cs = 0xFFFFFFFF)

/-- The sizes such an entry seems to have: the offset is taken for the first size that is 0xFFFFFFFF. -/
def clashSizes (off : Nat) (l : Listing) : Nat × Nat := if l.us = 0xFFFFFFFF then (off, l.cs.toNat) else (l.us.toNat, off)

/-- The archive comment a program set. -/
def archiveComment (ops : List Op) : List UInt8 :=
  match finalComment none ops with
  | some c => c.bytes
  | none => []

/-- Where the end record of an archive with this comment starts. -/
def endPosition (bytes comment : List UInt8) : Nat := bytes.length - (22 + comment.length)

/-- The call was told that its entry is one too many. -/
def TooMany : OpResult → Prop
  | .whole r => r = .error (.err (.zip64Needed .tooManyFiles))
  | .stream _ _ (some r) => r = .error (.err (.zip64Needed .tooManyFiles))
  | _ => False

/-- The archive says what it means: the caller left ZIP64 fields to the writer, the comment fits its length field, the end
record is the last thing that looks like one, nothing before it looks like a ZIP64 locator unless it is one (`zip64`), no
entry was refused as one too many, and offsets fit in 64 bits. Archives for which one of these is not so are dealt with by
the theorems named `_fails`. -/
structure Legible (ops : List Op) (rs : List OpResult) (zip64 : Bool) (bytes : List UInt8) : Prop where
  own : ∀ op ∈ ops, ∀ f ∈ userFields op, OwnField f
  comment : (archiveComment ops).length ≤ 65535
  last : LastEnd bytes (endPosition bytes (archiveComment ops))
  locator : HasLocator bytes (endPosition bytes (archiveComment ops)) → zip64 = true
  count : ∀ r ∈ rs, ¬ TooMany r
  size : bytes.length < 2 ^ 64

/-- What `Legible` asks of the end of the archive, and of its size; nothing is asked of the extra fields. -/
structure Closing (ops : List Op) (rs : List OpResult) (zip64 : Bool) (bytes : List UInt8) : Prop where
  comment : (archiveComment ops).length ≤ 65535
  last : LastEnd bytes (endPosition bytes (archiveComment ops))
  locator : HasLocator bytes (endPosition bytes (archiveComment ops)) → zip64 = true
  count : ∀ r ∈ rs, ¬ TooMany r
  size : bytes.length < 2 ^ 64

/-- The call did not fail. -/
def succeeded {α : Type} : Res α → Bool
  | .ok _ => true
  | .error _ => false

instance (r : Res Unit) : Decidable (Listed r) := by unfold Listed; infer_instance

/-- The call's entry is in the directory, going by what the call reported. -/
def isListed : OpResult → Bool
  | .whole r => decide (Listed r)
  | .stream _ _ (some r) => decide (Listed r)
  | _ => false

/-- Under this method the bytes stand for the data: they are the data, or decode to it. -/
def StandsFor (C : Codec) (m : Compression) (x d : List UInt8) : Prop :=
  (m = .stored ∧ x = d) ∨ (m ≠ .stored ∧ ∀ rest, C.decode m (x ++ rest) = ⟨d, x.length, true⟩)

/-- The data that the call put into the archive. Precompressed data is what the caller's bytes stand for, if the caller gave
its checksum. Not for a compressed stream with failed writes. -/
inductive DataOf (C : Codec) : Op → OpResult → List UInt8 → Prop where
  | whole (e : ZipEntry) (d : List UInt8) (evs : List Ev) (r : Res Unit) : DataOf C (.whole e d false evs) (.whole r) d
  | wholePre (e : ZipEntry) (x d : List UInt8) (evs : List Ev) (r : Res Unit) (h : StandsFor C e.compression x d)
      (hc : e.crc32 = crc32 d) : DataOf C (.whole e x true evs) (.whole r) d
  | stream (e : ZipEntry) (evs evs' : List Ev) (acts : List StreamAct) (rs : List (Res Nat)) (r : Res Unit)
      (h : e.compression = .stored ∨ AllOk rs) :
      DataOf C (.stream e false evs acts (.close evs')) (.stream (.ok ()) rs (some r)) (accepted acts rs)
  | streamPre (e : ZipEntry) (evs evs' : List Ev) (acts : List StreamAct) (rs : List (Res Nat)) (r : Res Unit)
      (d : List UInt8) (h : StandsFor C e.compression (accepted acts rs) d) (hc : e.crc32 = crc32 d) :
      DataOf C (.stream e true evs acts (.close evs')) (.stream (.ok ()) rs (some r)) d

/-- The data of the listed calls of a program, in order. -/
inductive DataIn (C : Codec) : List Op → List OpResult → List (List UInt8) → Prop where
  | nil : DataIn C [] [] []
  | listed {op : Op} {r : OpResult} {d : List UInt8} {ops : List Op} {rs : List OpResult} {ds : List (List UInt8)}
      (h : isListed r = true) (hd : DataOf C op r d) (hs : DataIn C ops rs ds) : DataIn C (op :: ops) (r :: rs) (d :: ds)
  | other {op : Op} {r : OpResult} {ops : List Op} {rs : List OpResult} {ds : List (List UInt8)}
      (h : isListed r = false) (hs : DataIn C ops rs ds) : DataIn C (op :: ops) (r :: rs) ds

/-- The bytes that stand for the entry are the data, or decode to it. -/
def Holds (C : Codec) (l : Listing) (d : List UInt8) : Prop := StandsFor C l.entry.compression l.stored d

/-- The call streams data whose recorded sizes `force_no_zip64` exchanges. -/
def Exchanged : Op → Prop
  | .stream e pre _ _ _ => e.compression ≠ .stored ∨ pre = true
  | _ => False

/-- A client: open the entry at index `i` and read it with the check, in buffers of `chunk` bytes. -/
def checkedRead (C : Codec) (f : ZipFile) (i chunk : Nat) : Rd (List UInt8) := do
  let (er, e) ← readerWithEntry f i
  let (b, _) ← er.readToEndChecked C chunk e.crc32
  pure b

end AsyncZip.Spec
