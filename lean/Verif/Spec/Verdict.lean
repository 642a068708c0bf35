import Verif.Spec.Written
import Verif.Spec.Codec
/-!
# What the writer refuses, and with which error
-/

namespace AsyncZip.Spec

/-- The outcome is that of the first row whose condition holds, and success if there is none. -/
inductive FirstOf : List (Prop × Fail) → Res Unit → Prop where
  | none : FirstOf [] (.ok ())
  | here {p : Prop} {x : Fail} {rows : List (Prop × Fail)} (h : p) : FirstOf ((p, x) :: rows) (.error x)
  | later {p : Prop} {x : Fail} {rows : List (Prop × Fail)} {r : Res Unit} (h : ¬ p) (h' : FirstOf rows r) :
      FirstOf ((p, x) :: rows) r

/-- The length an extra field is counted with: its 4-byte head and its content, where a disk number in a ZIP64 field counts
as 8 bytes. -/
def counted : ExtraField → Nat
  | .zip64 f => 4 + (if f.uncompressedSize.isSome then 8 else 0) + (if f.compressedSize.isSome then 8 else 0) +
      (if f.relativeHeaderOffset.isSome then 8 else 0) + (if f.diskStartNumber.isSome then 8 else 0)
  | .unicodePath (.v1 _ s) => 9 + s.length
  | .unicodePath (.unknown _ d) => 5 + d.length
  | .unicodeComment (.v1 _ s) => 9 + s.length
  | .unicodeComment (.unknown _ d) => 5 + d.length
  | .unknown f => 4 + f.content.length

/-- The length extra fields are counted with. -/
def countedAll (fs : List ExtraField) : Nat := (fs.map counted).sum

/-- The first Unicode path field. -/
def pathField (fs : List ExtraField) : Option InfoZipField :=
  fs.findSome? fun | .unicodePath f => some f | _ => none

/-- The first Unicode comment field. -/
def commentField (fs : List ExtraField) : Option InfoZipField :=
  fs.findSome? fun | .unicodeComment f => some f | _ => none

/-- The first ZIP64 field. -/
def zip64Field (fs : List ExtraField) : Option Zip64Field :=
  fs.findSome? fun | .zip64 f => some f | _ => none

/-- Fields counting `total` after a text of `n` bytes was put into the given first field of its kind: appended if there is
none, replacing the text if it is of the known version, and left alone otherwise. -/
def retold (total n : Nat) : Option InfoZipField → Nat
  | none => total + (9 + n)
  | some (.v1 _ old) => total - old.length + n
  | some (.unknown _ _) => total

/-- A text that is put into a Unicode field if one of the entry's two texts needs it. -/
def Told (s : ZipString) : Prop := s.encoding = .utf8 ∧ s.raw ≠ []

instance (s : ZipString) : Decidable (Told s) := by unfold Told; infer_instance

/-- Name and comment both are UTF-8 and nothing else. -/
def PlainTexts (e : ZipEntry) : Prop :=
  (e.filename.encoding = .utf8 ∧ e.filename.alternative = none) ∧ (e.comment.encoding = .utf8 ∧ e.comment.alternative = none)

instance (e : ZipEntry) : Decidable (PlainTexts e) := by unfold PlainTexts; infer_instance

/-- Fields of the entry counting `total` after its name and comment were put in where they need be. -/
def namedTotal (e : ZipEntry) (total : Nat) : Nat :=
  if PlainTexts e then total
  else
    let t := if Told e.filename then retold total e.filename.raw.length (pathField e.extraFields) else total
    if Told e.comment then retold t e.comment.raw.length (commentField e.extraFields) else t

/-- What is stored for a whole entry. -/
def wholeStored (C : Codec) (e : ZipEntry) (d : List UInt8) (pre : Bool) : List UInt8 :=
  if pre = true ∨ e.compression = .stored then d
  else (C.feed (C.start e.compression e.compressionLevel) d).2 ++
    C.finish (C.feed (C.start e.compression e.compressionLevel) d).1

/-- The number does not fit in 32 bits. -/
def Beyond32 (n : Nat) : Prop := 0xFFFFFFFF < n

instance (n : Nat) : Decidable (Beyond32 n) := by unfold Beyond32; infer_instance

/-- What a whole entry is refused for, in order, before anything is written: `us` and `cs` are the uncompressed and the
compressed size, `off` the offset of its local header. -/
def wholeRows (force : Bool) (off : Nat) (e : ZipEntry) (pre : Bool) (us cs : Nat) : List (Prop × Fail) :=
  [(e.compression = .deflate64 ∧ pre = false, .panic),
   (force = true ∧ (Beyond32 us ∨ Beyond32 cs ∨ Beyond32 off), .err (.zip64Needed .largeFile)),
   (65535 < namedTotal e (countedAll e.extraFields +
      (if Beyond32 us ∨ Beyond32 cs then (if Beyond32 off then 28 else 20) else 0)), .err .extraFieldTooLarge),
   (65535 < e.filename.basic.length, .err .fileNameTooLarge),
   (65535 < e.comment.basic.length, .err .commentTooLarge)]

/-- What a whole entry is refused for after it has been written: the directory record needs a ZIP64 field for the offset
alone and there is no room for it, or there are too many entries. -/
def wholeLateRows (force : Bool) (off : Nat) (count : Nat) (e : ZipEntry) (us cs : Nat) : List (Prop × Fail) :=
  [(¬ (Beyond32 us ∨ Beyond32 cs) ∧ Beyond32 off ∧ 65535 < namedTotal e (countedAll e.extraFields) + 12,
      .err .extraFieldTooLarge),
   (force = true ∧ 65535 ≤ count, .err (.zip64Needed .tooManyFiles))]

/-- What opening a stream is refused for, in order. The first three before anything is written. -/
def openRows (force : Bool) (e : ZipEntry) (pre : Bool) : List (Prop × Fail) :=
  [(force = true ∧ (Beyond32 e.compressedSize.toNat ∨ Beyond32 e.uncompressedSize.toNat), .err (.zip64Needed .largeFile)),
   (65535 < namedTotal e (countedAll e.extraFields + (if force then 0 else 20)), .err .extraFieldTooLarge),
   (65535 < e.filename.basic.length, .err .fileNameTooLarge),
   (e.compression = .deflate64 ∧ pre = false, .panic)]

/-- Fields of the entry counting `total` after sizes and offset were put into the first ZIP64 field: the caller's own, or
the one with two values the stream was opened with. -/
def sizedTotal (e : ZipEntry) (total : Nat) : Nat :=
  match zip64Field e.extraFields with
  | none => total + 8
  | some f => total + (28 + (if f.diskStartNumber.isSome then 8 else 0)) - counted (.zip64 f)

/-- What closing a stream is refused for, in order. The first two before the descriptor is written. -/
def closeRows (force : Bool) (off : Nat) (count : Nat) (e : ZipEntry) (us cs : Nat) : List (Prop × Fail) :=
  [(force = true ∧ (Beyond32 us ∨ Beyond32 cs ∨ Beyond32 off), .err (.zip64Needed .largeFile)),
   (force = false ∧ 65535 < sizedTotal e (namedTotal e (countedAll e.extraFields + 20)), .err .extraFieldTooLarge),
   (65535 < e.comment.basic.length, .err .commentTooLarge),
   (force = true ∧ 65535 ≤ count, .err (.zip64Needed .tooManyFiles))]

/-- What the calls on a stream stand for in the archive: the accepted bytes, or what an encoder made of them (and, if a
write failed, possibly of more). -/
def StreamStored (C : Codec) (e : ZipEntry) (pre : Bool) (acts : List StreamAct) (rs : List (Res Nat)) (stored : List UInt8) :
    Prop :=
  (pre = true ∧ stored = accepted acts rs) ∨
  (pre = false ∧ ∃ fed, StoredAs C e.compression .default fed stored ∧
    ((e.compression = .stored ∨ AllOk rs) → fed = accepted acts rs))

end AsyncZip.Spec
