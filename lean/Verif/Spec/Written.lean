import Verif.Spec.Codec
import Verif.Spec.Archive
import Verif.Spec.Extra
/-!
# What a program asked the writer to write, and how an archive describes it

`Listing` is one entry from the program's point of view. `Asked` ties it to a call and what the program saw of it,
`Describes` to the central directory record, `LocalAt` to the bytes before the directory.
-/

namespace AsyncZip.Spec

/-- One entry as the program sees it: what it passed in, whether it streamed it, the checksum and size of its data (for
precompressed data: those it declared), and the bytes that stand for the data in the archive. -/
structure Listing where
  entry : ZipEntry
  streamed : Bool
  crc : UInt32
  us : UInt64
  stored : List UInt8

/-- The call reported success, or that the entry was one too many for an archive without ZIP64 (in which case the entry
is nevertheless kept). -/
def Listed (r : Res Unit) : Prop := r = .ok () ∨ r = .error (.err (.zip64Needed .tooManyFiles))

/-- `stored` stands for `d`: verbatim, or as some encoder run at this level produced it. -/
def StoredAs (C : Codec) (m : Compression) (l : Level) (d stored : List UInt8) : Prop :=
  (m = .stored ∧ stored = d) ∨
  (m ≠ .stored ∧ m ≠ .deflate64 ∧ ∃ o s, Encodes C (C.start m l) d o s ∧ stored = o ++ C.finish s)

/-- What a listed call asked for. For a streamed entry with a failed write the encoder may have taken in more than was
reported as accepted. -/
inductive Asked (C : Codec) : Op → OpResult → Listing → Prop where
  | whole (e : ZipEntry) (d : List UInt8) (evs : List Ev) (r : Res Unit) (stored : List UInt8) (h : Listed r)
      (hs : StoredAs C e.compression e.compressionLevel d stored) :
      Asked C (.whole e d false evs) (.whole r) ⟨e, false, crc32 d, UInt64.ofNat d.length, stored⟩
  | wholePre (e : ZipEntry) (d : List UInt8) (evs : List Ev) (r : Res Unit) (h : Listed r) :
      Asked C (.whole e d true evs) (.whole r) ⟨e, false, e.crc32, e.uncompressedSize, d⟩
  | stream (e : ZipEntry) (evs evs' : List Ev) (acts : List StreamAct) (rs : List (Res Nat)) (r : Res Unit)
      (fed stored : List UInt8) (h : Listed r) (hs : StoredAs C e.compression .default fed stored)
      (hf : (e.compression = .stored ∨ AllOk rs) → fed = accepted acts rs) :
      Asked C (.stream e false evs acts (.close evs')) (.stream (.ok ()) rs (some r))
        ⟨e, true, crc32 (accepted acts rs), UInt64.ofNat (accepted acts rs).length, stored⟩
  | streamPre (e : ZipEntry) (evs evs' : List Ev) (acts : List StreamAct) (rs : List (Res Nat)) (r : Res Unit)
      (h : Listed r) :
      Asked C (.stream e true evs acts (.close evs')) (.stream (.ok ()) rs (some r))
        ⟨e, true, e.crc32, e.uncompressedSize, accepted acts rs⟩

/-- The call reported something else than `Listed`: it failed, was cancelled, or the stream was abandoned; or it only set
the comment. -/
def NotListed : OpResult → Prop
  | .whole r => ¬ Listed r
  | .stream _ _ (some r) => ¬ Listed r
  | .stream _ _ none => True
  | .comment => True

/-- The call was listed, or only set the comment: it was not refused, and no stream was abandoned. -/
def Fine : OpResult → Prop
  | .whole r => Listed r
  | .stream _ _ (some r) => Listed r
  | .stream _ _ none => False
  | .comment => True

/-- The listed calls of a program, in order. -/
inductive Program (C : Codec) : List Op → List OpResult → List Listing → Prop where
  | nil : Program C [] [] []
  | listed {op : Op} {r : OpResult} {ops : List Op} {rs : List OpResult} {l : Listing} {ls : List Listing}
      (h : Asked C op r l) (hs : Program C ops rs ls) : Program C (op :: ops) (r :: rs) (l :: ls)
  | other {op : Op} {r : OpResult} {ops : List Op} {rs : List OpResult} {ls : List Listing}
      (h : NotListed r) (hs : Program C ops rs ls) : Program C (op :: ops) (r :: rs) ls

/-- Compressed size. -/
def Listing.cs (l : Listing) : UInt64 := UInt64.ofNat l.stored.length

/-- (uncompressed, compressed) as recorded. Streaming with `force_no_zip64` exchanges them
(`src/base/write/entry_stream.rs:219`). -/
def Listing.recorded (force : Bool) (l : Listing) : UInt64 × UInt64 :=
  if force && l.streamed then (l.cs, l.us) else (l.us, l.cs)

/-- The entry makes the archive need ZIP64. -/
def NeedsZip64 (l : Listing) : Prop := l.streamed = true ∨ l.us > 0xFFFFFFFF ∨ l.cs > 0xFFFFFFFF

/-- A new writer over `sink`, in any configuration. -/
inductive Created (sink : Sink) : ZipWriter → Prop where
  | new : Created sink (.new sink)
  | noZip64 {w : ZipWriter} (h : Created sink w) : Created sink w.withForceNoZip64
  | zip64 {w : ZipWriter} (h : Created sink w) : Created sink w.withForceZip64

/-- A call panicked. -/
def Panicked : OpResult → Prop
  | .whole r => r = .error .panic
  | .stream o rs r => o = .error .panic ∨ .error .panic ∈ rs ∨ r = some (.error .panic)
  | .comment => False

/-- The call asks the crate to compress with Deflate64. -/
def AsksDeflate64 : Op → Prop
  | .whole e _ pre _ => e.compression = .deflate64 ∧ pre = false
  | .stream e pre _ _ _ => e.compression = .deflate64 ∧ pre = false
  | .comment _ => False

/-- A write or a flush, as opposed to a close. -/
def isUse : StreamAct → Bool
  | .shut _ => false
  | _ => true

/-- Some write or flush follows a close. -/
def usesClosed : List StreamAct → Bool
  | [] => false
  | .shut _ :: acts => acts.any isUse || usesClosed acts
  | _ :: acts => usesClosed acts

/-- The call goes on using the writer of a compressed entry after closing it through `AsyncWrite`. -/
def WritesClosed : Op → Prop
  | .stream e pre _ acts _ => pre = false ∧ e.compression ≠ .stored ∧ usesClosed acts = true
  | _ => False

/-- No ZIP64 field among these extra fields. -/
def NoZip64 (fs : List ExtraField) : Prop := ∀ f ∈ fs, ∀ z, f ≠ .zip64 z

/-- An extra field an application may put on an entry of its own: ZIP64 fields are the writer's business, Info-ZIP content
fits in 16 bits, and an unknown field has an id of its own and a truthful size. -/
def OwnField (f : ExtraField) : Prop := (∀ z, f ≠ .zip64 z) ∧ WellFormed 0 0 f

/-- The extra fields the caller put on the entry of a call. -/
def userFields : Op → List ExtraField
  | .whole e _ _ _ => e.extraFields
  | .stream e _ _ _ _ => e.extraFields
  | .comment _ => []

/-- The comment a program last set. -/
def finalComment (c : Option RString) : List Op → Option RString
  | [] => c
  | .comment d :: ops => finalComment (some d) ops
  | _ :: ops => finalComment c ops

end AsyncZip.Spec
