import Verif.Model.ExtraField
import Verif.Model.Crc
import Verif.Model.Codec
import Verif.Model.Read
/-!
# Writing an archive (`src/base/write/*.rs`)

The sink is an `AsyncWrite`. Its behaviour over time is a finite list of events, one list per API call. For a plain
write, `accept n`/`drain n` is `Poll::Ready(Ok(min n buf.len()))`. For an encoder, `drain n` is the sink taking up to `n`
bytes of the encoder's pending output and `accept n` is the encoder taking up to `n` bytes of input. Running out of
events means the future was dropped.
-/

namespace AsyncZip

/-- One event of the sink (or encoder) during a call. `error` may happen after the encoder has already absorbed some
input without reporting it; plain sinks ignore `absorbed`. -/
inductive Ev where
  | pending
  | accept (n : Nat)
  | drain (n : Nat)
  | error (code absorbed : Nat)
deriving DecidableEq, Repr

/-- The user's `AsyncWrite` object: what it accepted, and how often it was flushed and closed. -/
structure Sink where
  bytes : Bytes
  flushes : Nat
  closes : Nat
deriving DecidableEq, Repr

/-- `AsyncOffsetWriter`, `src/base/write/io/offset.rs:13-17`. `offset: u64` is a natural number (a sink accepting
2^64 bytes is out of scope). -/
structure OffsetWriter where
  sink : Sink
  offset : Nat
deriving DecidableEq, Repr

/-- `CentralDirectoryEntry`, `src/base/write/mod.rs:90-93`. -/
structure CdEntry where
  header : CentralDirectoryRecord
  entry : ZipEntry
deriving DecidableEq, Repr

/-- `ZipFileWriter`, `src/base/write/mod.rs:99-107`. -/
structure ZipWriter where
  writer : OffsetWriter
  cdEntries : List CdEntry
  forceNoZip64 : Bool
  isZip64 : Bool
  commentOpt : Option RString

/-- `ZipFileWriter::new`, `src/base/write/mod.rs:111-119` (and `with_tokio`, `280-288`). -/
def ZipWriter.new (sink : Sink) : ZipWriter :=
  { writer := { sink, offset := 0 }, cdEntries := [], commentOpt := none, isZip64 := false, forceNoZip64 := false }

/-- `ZipFileWriter::force_no_zip64`, `src/base/write/mod.rs:123-126`. -/
def ZipWriter.withForceNoZip64 (w : ZipWriter) : ZipWriter := { w with forceNoZip64 := true }

/-- `ZipFileWriter::force_zip64`, `src/base/write/mod.rs:130-133`. -/
def ZipWriter.withForceZip64 (w : ZipWriter) : ZipWriter := { w with isZip64 := true }

/-- `ZipFileWriter::comment`, `src/base/write/mod.rs:170-172`. -/
def ZipWriter.setComment (w : ZipWriter) (c : RString) : ZipWriter := { w with commentOpt := some c }

/-- What an `io::Error` of the sink becomes through `?` (`src/error.rs:59-60`; the variant is called
`UpstreamReadError` although it is a write). -/
def sinkErr (code : Nat) : Fail := .err (.upstreamReadError (.other code))

/-- `AsyncOffsetWriter::poll_write` returning `Ready(Ok(k))`, `src/base/write/io/offset.rs:47-56`: the sink keeps the
first `k` bytes of `buf` and the offset grows by `k`. -/
def OffsetWriter.accept (w : OffsetWriter) (buf : Bytes) (k : Nat) : OffsetWriter :=
  { sink := { w.sink with bytes := w.sink.bytes ++ buf.take k }, offset := w.offset + k }

/-- `AsyncWriteExt::write_all` (futures-lite) on an `AsyncOffsetWriter`. Returns what was not written, and the rest of
the events. -/
def writeAllLoop (w : OffsetWriter) (buf : Bytes) : List Ev → Res Unit × Bytes × OffsetWriter × List Ev
  | [] => if buf.length = 0 then (.ok (), buf, w, []) else (.error .cancelled, buf, w, [])
  | ev :: evs =>
    if buf.length = 0 then (.ok (), buf, w, ev :: evs)
    else
      match ev with
      | .pending => writeAllLoop w buf evs
      | .error c _ => (.error (sinkErr c), buf, w, evs)
      | .accept n | .drain n =>
        if min n buf.length = 0 then (.error (.err (.upstreamReadError .writeZero)), buf, w, evs)
        else writeAllLoop (w.accept buf (min n buf.length)) (buf.drop (min n buf.length)) evs

/-- State of a writer call: the `ZipFileWriter` and the events still to come. -/
structure WSt where
  zw : ZipWriter
  evs : List Ev

/-- An `async fn` over the writer; the writer keeps every effect made before a failure. -/
def Wr (α : Type) := WSt → Res α × WSt

namespace Wr

/-- Sequencing with `?`. -/
instance : Monad Wr where
  pure a := fun s => (.ok a, s)
  bind m f := fun s =>
    match m s with
    | (.ok a, s') => f a s'
    | (.error e, s') => (.error e, s')

/-- `return Err(e)` or a panic. -/
def fail {α : Type} (e : Fail) : Wr α := fun s => (.error e, s)

/-- Lift a synchronous fallible computation. -/
def lift {α : Type} (r : Res α) : Wr α := fun s => (r, s)

/-- Read the writer. -/
def get : Wr ZipWriter := fun s => (.ok s.zw, s)

/-- Mutate the writer. -/
def modify (f : ZipWriter → ZipWriter) : Wr Unit := fun s => (.ok (), { s with zw := f s.zw })

/-- `self.writer.write_all(buf).await?`. -/
def writeAll (buf : Bytes) : Wr Unit := fun s =>
  match writeAllLoop s.zw.writer buf s.evs with
  | (r, _, w, evs) => (r, { zw := { s.zw with writer := w }, evs })

end Wr
open Wr

/-- `u16::try_from(n).map_err(|_| e)?`. -/
def tryU16 (n : Nat) (e : ZipError) : Res UInt16 := if n < 2 ^ 16 then .ok (UInt16.ofNat n) else .error (.err e)

/-- `get_or_put_info_zip_unicode_path_extra_field_mut` followed by the conditional assignment,
`src/base/write/mod.rs:291-306` with `entry_whole.rs:122-127` / `entry_stream.rs:140-144`: update the first path field if
it is `V1`, leave it if it is `Unknown`, append one if there is none. -/
def putUnicodePath (crc : UInt32) (unicode : Bytes) : List ExtraField → List ExtraField
  | [] => [.unicodePath (.v1 crc unicode)]
  | .unicodePath (.v1 _ _) :: fs => .unicodePath (.v1 crc unicode) :: fs
  | .unicodePath (.unknown v d) :: fs => .unicodePath (.unknown v d) :: fs
  | f :: fs => f :: putUnicodePath crc unicode fs

/-- `get_or_put_info_zip_unicode_comment_extra_field_mut` followed by the conditional assignment,
`src/base/write/mod.rs:308-323` with `entry_whole.rs:136-141` / `entry_stream.rs:152-156`. -/
def putUnicodeComment (crc : UInt32) (unicode : Bytes) : List ExtraField → List ExtraField
  | [] => [.unicodeComment (.v1 crc unicode)]
  | .unicodeComment (.v1 _ _) :: fs => .unicodeComment (.v1 crc unicode) :: fs
  | .unicodeComment (.unknown v d) :: fs => .unicodeComment (.unknown v d) :: fs
  | f :: fs => f :: putUnicodeComment crc unicode fs

/-- The path half of `utf8_without_alternative`, `src/base/write/entry_whole.rs:116-129`, `entry_stream.rs:135-146`. -/
def addUnicodePath (e : ZipEntry) : ZipEntry :=
  match e.filename.encoding with
  | .utf8 =>
    if e.filename.raw.isEmpty then e
    else { e with extraFields := putUnicodePath (crc32 e.filename.basic) e.filename.raw e.extraFields }
  | .raw => e

/-- The comment half of `utf8_without_alternative`, `src/base/write/entry_whole.rs:130-143`, `entry_stream.rs:147-158`. -/
def addUnicodeComment (e : ZipEntry) : ZipEntry :=
  match e.comment.encoding with
  | .utf8 =>
    if e.comment.raw.isEmpty then e
    else { e with extraFields := putUnicodeComment (crc32 e.comment.basic) e.comment.raw e.extraFields }
  | .raw => e

/-- `filename().is_utf8_without_alternative() && comment().is_utf8_without_alternative()`,
`src/base/write/entry_whole.rs:112-113`, `entry_stream.rs:132-133`. -/
def bothUtf8 (e : ZipEntry) : Bool := e.filename.isUtf8WithoutAlternative && e.comment.isUtf8WithoutAlternative

/-- `utf8_without_alternative`, `src/base/write/entry_whole.rs:111-147`; the same code is inlined at
`entry_stream.rs:132-159`. Returns the flag and the entry with its unicode extra fields. -/
def utf8WithoutAlternative (e : ZipEntry) : Bool × ZipEntry :=
  if bothUtf8 e then (true, e) else (false, addUnicodeComment (addUnicodePath e))

/-- `enforce_zip64`, `src/base/write/entry_whole.rs:100-109`. -/
def enforceZip64 : Wr Unit := do
  let w ← get
  if w.forceNoZip64 then fail (.err (.zip64Needed .largeFile))
  else modify fun w => { w with isZip64 := true }

/-- `enforce_zip64_sizes`, `src/base/write/entry_whole.rs:64-83`: the entry and the builder afterwards. -/
def enforceZip64Sizes (e : ZipEntry) : Wr (ZipEntry × Option Zip64Field) :=
  if ¬ e.uncompressedSize > 0xFFFFFFFF ∧ ¬ e.compressedSize > 0xFFFFFFFF then pure (e, none)
  else do
    enforceZip64
    pure ({ e with uncompressedSize := 0xFFFFFFFF, compressedSize := 0xFFFFFFFF },
      some (Zip64Builder.sizes Zip64Builder.new e.compressedSize e.uncompressedSize))

/-- `enforce_zip64_offset`, `src/base/write/entry_whole.rs:85-98`: the builder and `lh_offset` afterwards. -/
def enforceZip64Offset (builder : Option Zip64Field) (lhOffset : Nat) : Wr (Option Zip64Field × Nat) :=
  if lhOffset ≤ 0xFFFFFFFF then pure (builder, lhOffset)
  else do
    enforceZip64
    pure (some (Zip64Builder.relativeHeaderOffset (builder.getD Zip64Builder.new) (UInt64.ofNat lhOffset)), 0xFFFFFFFF)

/-- `base::write::compress`, `src/base/write/entry_whole.rs:252-297`: `Deflate64` and `Stored` panic. The encoder is fed the
data in one piece. -/
def compress (C : Codec) (e : ZipEntry) (data : Bytes) : Res Bytes :=
  match e.compression with
  | .stored => .error .panic
  | .deflate64 => .error .panic
  | c =>
    let r := C.feed (C.start c e.compressionLevel) data
    .ok (r.2 ++ C.finish r.1)

/-- `base::write::crc32`, `src/base/write/entry_whole.rs:300-302`. -/
def crc32Fn (data : Bytes) : UInt32 := crc32 data

/-- `EntryWholeWriter::compress`, `src/base/write/entry_whole.rs:45-62`. -/
def wholeCompress (C : Codec) (e : ZipEntry) (data : Bytes) : Res Bytes :=
  if e.compression = .stored then .ok data else compress C e data

/-- `src/base/write/entry_whole.rs:150-157`: sizes, checksum and compression. Returns entry and data to store. -/
def wholeMeasure (C : Codec) (e : ZipEntry) (data : Bytes) (precompressed : Bool) : Res (ZipEntry × Bytes) :=
  if precompressed then .ok ({ e with compressedSize := UInt64.ofNat data.length }, data)
  else do
    let e := { e with uncompressedSize := UInt64.ofNat data.length, crc32 := crc32 data }
    let stored ← wholeCompress C e data
    pure ({ e with compressedSize := UInt64.ofNat stored.length }, stored)

/-- `src/base/write/entry_whole.rs:163-170`: push a complete ZIP64 field now, keep an offset-only one for the central
directory. -/
def placeBuilder (e : ZipEntry) (builder : Option Zip64Field) : Res (ZipEntry × Option Zip64Field) :=
  match builder with
  | none => .ok (e, none)
  | some b =>
    if Zip64Builder.eofOnly b then .ok (e, some b)
    else do
      let f ← Zip64Builder.build b
      pure ({ e with extraFields := e.extraFields ++ [.zip64 f] }, none)

/-- `src/base/write/entry_whole.rs:176-196`. -/
def wholeLfh (e : ZipEntry) (utf8 : Bool) : Res LocalFileHeader := do
  let extraFieldLength ← tryU16 (extraCountBytes e.extraFields) .extraFieldTooLarge
  let fileNameLength ← tryU16 e.filename.basic.length .fileNameTooLarge
  pure
    { compressedSize := e.compressedSize.toUInt32
      uncompressedSize := e.uncompressedSize.toUInt32
      compression := e.compression.toU16
      crc := e.crc32
      extraFieldLength
      fileNameLength
      modTime := e.lastModificationDate.time
      modDate := e.lastModificationDate.date
      version := asNeededToExtract e
      flags := { dataDescriptor := false, encrypted := false, filenameUnicode := utf8 } }

/-- `src/base/write/entry_whole.rs:198-215`. -/
def wholeCdh (e : ZipEntry) (h : LocalFileHeader) (lhOffset : Nat) : Res CentralDirectoryRecord := do
  let fileCommentLength ← tryU16 e.comment.basic.length .commentTooLarge
  pure
    { vMadeBy := asMadeBy
      vNeeded := h.version
      compressedSize := h.compressedSize
      uncompressedSize := h.uncompressedSize
      compression := h.compression
      crc := h.crc
      extraFieldLength := h.extraFieldLength
      fileNameLength := h.fileNameLength
      fileCommentLength
      modTime := h.modTime
      modDate := h.modDate
      flags := h.flags
      diskStart := 0
      interAttr := e.internalFileAttribute
      exterAttr := e.externalFileAttribute
      lhOffset := UInt32.ofNat lhOffset }

/-- What `EntryWholeWriter::write` has computed before its first write. -/
structure Prepared where
  entry : ZipEntry
  data : Bytes
  builder : Option Zip64Field
  lfh : LocalFileHeader
  cdh : CentralDirectoryRecord

/-- `src/base/write/entry_whole.rs:149-215`. -/
def wholePrepare (C : Codec) (e : ZipEntry) (data : Bytes) (precompressed : Bool) : Wr Prepared := do
  let (e, data) ← lift (wholeMeasure C e data precompressed)
  let (e, builder) ← enforceZip64Sizes e
  let w ← get
  let (builder, lhOffset) ← enforceZip64Offset builder w.writer.offset
  let (e, builder) ← lift (placeBuilder e builder)
  let (utf8, e) := utf8WithoutAlternative e
  let lfh ← lift (wholeLfh e utf8)
  let cdh ← lift (wholeCdh e lfh lhOffset)
  pure { entry := e, data, builder, lfh, cdh }

/-- `src/base/write/entry_whole.rs:223-227`. -/
def wholeLateBuilder (p : Prepared) : Res (ZipEntry × CentralDirectoryRecord) :=
  match p.builder with
  | none => .ok (p.entry, p.cdh)
  | some b => do
    let f ← Zip64Builder.build b
    let fields := p.entry.extraFields ++ [ExtraField.zip64 f]
    let n ← tryU16 (extraCountBytes fields) .extraFieldTooLarge
    pure ({ p.entry with extraFields := fields }, { p.cdh with extraFieldLength := n })

/-- `cd_entries.push` and the file count check, `src/base/write/entry_whole.rs:229-239`, `entry_stream.rs:273-284`. -/
def pushEntry (c : CdEntry) : Wr Unit := do
  modify fun w => { w with cdEntries := w.cdEntries ++ [c] }
  let w ← get
  if w.cdEntries.length > NON_ZIP64_MAX_NUM_FILES.toNat then
    if w.forceNoZip64 then fail (.err (.zip64Needed .tooManyFiles))
    else modify fun w => { w with isZip64 := true }
  else pure ()

/-- `EntryWholeWriter::write`, `src/base/write/entry_whole.rs:149-240`; `ZipFileWriter::write_entry_whole` and
`write_entry_whole_precompressed`, `src/base/write/mod.rs:136-146`. -/
def writeWhole (C : Codec) (e : ZipEntry) (data : Bytes) (precompressed : Bool) : Wr Unit := do
  let p ← wholePrepare C e data precompressed
  writeAll (le32 LFH_SIGNATURE)
  writeAll p.lfh.asSlice
  writeAll p.entry.filename.basic
  let extra ← lift (extraAsBytes p.entry.extraFields)
  writeAll extra
  writeAll p.data
  let (entry, header) ← lift (wholeLateBuilder p)
  pushEntry { header, entry }

/-! ## Streaming -/

/-- A compressing `CompressedAsyncWriter` (`src/base/write/compressed_writer.rs:15-27`): encoder state, output not yet
taken by the sink, and whether the encoder was closed, so that its final output is among the pending. -/
structure EncState (C : Codec) where
  enc : C.Enc
  pend : Bytes
  fin : Bool

/-- What is still to come if the encoder is closed now: the final output is produced once. -/
def EncState.tail {C : Codec} (s : EncState C) : Bytes := s.pend ++ (if s.fin then [] else C.finish s.enc)

/-- Writing to or flushing an encoder that was closed, `src/base/write/compressed_writer.rs:71-102`: up to
`async_compression`. -/
def lateFail (C : Codec) : Fail := if C.latePanics then .panic else sinkErr 0

/-- `EntryStreamWriter`, `src/base/write/entry_stream.rs:36-48`. `enc = none` is `CompressedAsyncWriter::Stored`; `written` is
the offset of the outer `AsyncOffsetWriter`. The `cd_entries`, `is_zip64` and sink borrows are the `ZipWriter` passed to
each function. -/
structure EntryStream (C : Codec) where
  entry : ZipEntry
  hasher : Hasher
  lfh : LocalFileHeader
  lfhOffset : Nat
  dataOffset : Nat
  written : Nat
  enc : Option (EncState C)
  precompressed : Bool

/-- `src/base/write/entry_stream.rs:110-130`: ZIP64 placeholder and the sizes for the local header. -/
def streamZip64 (e : ZipEntry) : Wr (ZipEntry × UInt32 × UInt32) := do
  let w ← get
  if ¬ w.forceNoZip64 then do
    modify fun w => { w with isZip64 := true }
    pure ({ e with extraFields := e.extraFields ++ [.zip64
      { headerId := ID_ZIP64, uncompressedSize := some e.uncompressedSize, compressedSize := some e.compressedSize
        relativeHeaderOffset := none, diskStartNumber := none }] }, NON_ZIP64_MAX_SIZE, NON_ZIP64_MAX_SIZE)
  else if e.compressedSize > 0xFFFFFFFF ∨ e.uncompressedSize > 0xFFFFFFFF then
    fail (.err (.zip64Needed .largeFile))
  else pure (e, e.compressedSize.toUInt32, e.uncompressedSize.toUInt32)

/-- `src/base/write/entry_stream.rs:163-182`. -/
def streamLfh (e : ZipEntry) (utf8 : Bool) (compressed uncompressed : UInt32) : Res LocalFileHeader := do
  let extraFieldLength ← tryU16 (extraCountBytes e.extraFields) .extraFieldTooLarge
  let fileNameLength ← tryU16 e.filename.basic.length .fileNameTooLarge
  pure
    { compressedSize := compressed
      uncompressedSize := uncompressed
      compression := e.compression.toU16
      crc := e.crc32
      extraFieldLength
      fileNameLength
      modTime := e.lastModificationDate.time
      modDate := e.lastModificationDate.date
      version := asNeededToExtract e
      flags := { dataDescriptor := true, encrypted := false, filenameUnicode := utf8 } }

/-- `write_lfh`, `src/base/write/entry_stream.rs:107-190`: the entry (mutated) and the header. -/
def streamWriteLfh (e : ZipEntry) : Wr (ZipEntry × LocalFileHeader) := do
  let (e, compressed, uncompressed) ← streamZip64 e
  let (utf8, e) := utf8WithoutAlternative e
  let h ← lift (streamLfh e utf8 compressed uncompressed)
  writeAll (le32 LFH_SIGNATURE)
  writeAll h.asSlice
  writeAll e.filename.basic
  let extra ← lift (extraAsBytes e.extraFields)
  writeAll extra
  pure (e, h)

/-- `CompressedAsyncWriter::from_raw`, `src/base/write/compressed_writer.rs:30-52`. -/
def encFromRaw (C : Codec) (c : Compression) (precompressed : Bool) : Res (Option (EncState C)) :=
  if precompressed then .ok none
  else match c with
    | .stored => .ok none
    | .deflate64 => .error .panic
    | c => .ok (some { enc := C.start c .default, pend := [], fin := false })

/-- `EntryStreamWriter::from_raw` and `from_raw_precompressed`, `src/base/write/entry_stream.rs:51-105`;
`ZipFileWriter::write_entry_stream(_precompressed)`, `src/base/write/mod.rs:151-167`. -/
def openStream (C : Codec) (e : ZipEntry) (precompressed : Bool) : Wr (EntryStream C) := do
  let w ← get
  let (e, h) ← streamWriteLfh e
  let w' ← get
  let enc ← lift (encFromRaw C e.compression precompressed)
  pure
    { entry := e, hasher := Hasher.new, lfh := h, lfhOffset := w.writer.offset, dataOffset := w'.writer.offset
      written := 0, enc, precompressed }

/-- `poll_write` on the `Stored` variant until ready, `src/base/write/compressed_writer.rs:74` and `offset.rs:47-56`:
bytes accepted. -/
def sinkWrite (w : OffsetWriter) (buf : Bytes) : List Ev → Res Nat × OffsetWriter
  | [] => (.error .cancelled, w)
  | .pending :: evs => sinkWrite w buf evs
  | .error c _ :: _ => (.error (sinkErr c), w)
  | .accept n :: _ | .drain n :: _ => (.ok (min n buf.length), w.accept buf (min n buf.length))

/-- Feed the first `k` bytes of `buf` to the encoder. -/
def EncState.feed {C : Codec} (s : EncState C) (buf : Bytes) (k : Nat) : EncState C :=
  let r := C.feed s.enc (buf.take k)
  { s with enc := r.1, pend := s.pend ++ r.2 }

/-- `poll_write` on an encoder until ready, `src/base/write/compressed_writer.rs:76-84` (`async_compression` write
encoders): pending output may go to the sink, input is absorbed. -/
def encWrite {C : Codec} (w : OffsetWriter) (s : EncState C) (buf : Bytes) :
    List Ev → Res Nat × OffsetWriter × EncState C
  | [] => (.error .cancelled, w, s)
  | .pending :: evs => encWrite w s buf evs
  | .drain n :: evs =>
    encWrite (w.accept s.pend (min n s.pend.length)) { s with pend := s.pend.drop (min n s.pend.length) } buf evs
  | .error c absorbed :: _ => (.error (sinkErr c), w, s.feed buf absorbed)
  | .accept n :: _ => (.ok (min n buf.length), w, s.feed buf (min n buf.length))

/-- `EntryStreamWriter::poll_write` until ready, `src/base/write/entry_stream.rs:289-297`. -/
def streamWrite {C : Codec} (zw : ZipWriter) (st : EntryStream C) (buf : Bytes) (evs : List Ev) :
    Res Nat × ZipWriter × EntryStream C :=
  match st.enc with
  | none =>
    match sinkWrite zw.writer buf evs with
    | (.ok k, w) =>
      (.ok k, { zw with writer := w },
        { st with hasher := st.hasher.update (buf.take k), written := st.written + k })
    | (.error e, w) => (.error e, { zw with writer := w }, st)
  | some s =>
    if s.fin then (.error (lateFail C), zw, st)
    else
      match encWrite zw.writer s buf evs with
      | (.ok k, w, s') =>
        (.ok k, { zw with writer := w },
          { st with enc := some s', hasher := st.hasher.update (buf.take k), written := st.written + k })
      | (.error e, w, s') => (.error e, { zw with writer := w }, { st with enc := some s' })

/-- `poll_flush` of the sink until ready, `src/base/write/io/offset.rs:58-60`: a successful flush is counted. -/
def sinkFlush (w : OffsetWriter) : List Ev → Res Unit × OffsetWriter
  | [] => (.error .cancelled, w)
  | .pending :: evs => sinkFlush w evs
  | .error c _ :: _ => (.error (sinkErr c), w)
  | .accept _ :: _ | .drain _ :: _ => (.ok (), { w with sink := { w.sink with flushes := w.sink.flushes + 1 } })

/-- `EntryStreamWriter::poll_flush` until ready, `src/base/write/entry_stream.rs:299-301`,
`compressed_writer.rs:88-102`: an encoder first emits a flush block and drains; then the user's sink is flushed. -/
def streamFlush {C : Codec} (zw : ZipWriter) (st : EntryStream C) (evs : List Ev) :
    Res Unit × ZipWriter × EntryStream C :=
  match st.enc with
  | none =>
    match sinkFlush zw.writer evs with
    | (r, w) => (r, { zw with writer := w }, st)
  | some s =>
    if s.fin then (.error (lateFail C), zw, st)
    else
      let r := C.flush s.enc
      match writeAllLoop zw.writer (s.pend ++ r.2) evs with
      | (.ok (), _, w, evs') =>
        match sinkFlush w evs' with
        | (x, w') => (x, { zw with writer := w' }, { st with enc := some { s with enc := r.1, pend := [] } })
      | (.error e, rest, w, _) =>
        (.error e, { zw with writer := w }, { st with enc := some { s with enc := r.1, pend := rest } })

/-- `EntryStreamWriter::poll_close` until ready (`AsyncWriteExt::close` on `&mut` the stream writer),
`src/base/write/entry_stream.rs:303-305`, `compressed_writer.rs:104-118`: an encoder emits its final output, once, and
drains; the sink is shielded by `ShutdownIgnoredWriter` (`compressed_writer.rs:121-141`). The entry stays open. -/
def streamShut {C : Codec} (zw : ZipWriter) (st : EntryStream C) (evs : List Ev) :
    Res Unit × ZipWriter × EntryStream C :=
  match st.enc with
  | none => (.ok (), zw, st)
  | some s =>
    match writeAllLoop zw.writer s.tail evs with
    | (r, rest, w, _) => (r, { zw with writer := w }, { st with enc := some { s with pend := rest, fin := true } })

/-- `self.writer.close().await?`, `src/base/write/entry_stream.rs:202`, `compressed_writer.rs:104-118`: an encoder emits what
is left of its final output and drains it. -/
def encClose {C : Codec} : Option (EncState C) → Wr Unit
  | none => pure ()
  | some s => writeAll s.tail

/-- `get_zip64_extra_field_mut` and the update, `src/base/write/entry_stream.rs:222-240`, `src/base/read/mod.rs:108-117`. -/
def putZip64Sizes (us cs off : UInt64) : List ExtraField → List ExtraField
  | [] => [.zip64 { headerId := ID_ZIP64, uncompressedSize := some us, compressedSize := some cs
                    relativeHeaderOffset := some off, diskStartNumber := none }]
  | .zip64 f :: fs =>
    .zip64 { f with uncompressedSize := some us, compressedSize := some cs, relativeHeaderOffset := some off } :: fs
  | f :: fs => f :: putZip64Sizes us cs off fs

/-- What `close` of a streamed entry writes into the descriptor and directory, `src/base/write/entry_stream.rs:212-245`: the
entry, the local header, and the triple the code binds to `(cdr_compressed_size, cdr_uncompressed_size, lh_offset)`. In
the `force_no_zip64` branch the tuple really is built as (uncompressed, compressed, offset) at line 219. -/
def streamSizes (forceNoZip64 : Bool) (e : ZipEntry) (h : LocalFileHeader) (compressedSize lfhOffset : Nat) :
    Res (ZipEntry × LocalFileHeader × UInt32 × UInt32 × UInt32) :=
  if forceNoZip64 then
    if e.uncompressedSize.toNat > 0xFFFFFFFF ∨ compressedSize > 0xFFFFFFFF ∨ lfhOffset > 0xFFFFFFFF then
      .error (.err (.zip64Needed .largeFile))
    else .ok (e, h, e.uncompressedSize.toUInt32, UInt32.ofNat compressedSize, UInt32.ofNat lfhOffset)
  else
    let fields := putZip64Sizes e.uncompressedSize (UInt64.ofNat compressedSize) (UInt64.ofNat lfhOffset) e.extraFields
    do
      let n ← tryU16 (extraCountBytes fields) .extraFieldTooLarge
      pure ({ e with extraFields := fields }, { h with extraFieldLength := n }, NON_ZIP64_MAX_SIZE, NON_ZIP64_MAX_SIZE,
        NON_ZIP64_MAX_SIZE)

/-- The central directory header of a streamed entry, `src/base/write/entry_stream.rs:252-271`. -/
def streamCdh (e : ZipEntry) (h : LocalFileHeader) (cs us lhOffset : UInt32) : Res CentralDirectoryRecord := do
  let fileCommentLength ← tryU16 e.comment.basic.length .commentTooLarge
  pure
    { compressedSize := cs
      uncompressedSize := us
      crc := e.crc32
      vMadeBy := asMadeBy
      vNeeded := h.version
      compression := h.compression
      extraFieldLength := h.extraFieldLength
      fileNameLength := h.fileNameLength
      fileCommentLength
      modTime := h.modTime
      modDate := h.modDate
      flags := h.flags
      diskStart := 0
      interAttr := e.internalFileAttribute
      exterAttr := e.externalFileAttribute
      lhOffset }

/-- `src/base/write/entry_stream.rs:204-207`. -/
def EntryStream.finalEntry {C : Codec} (st : EntryStream C) : ZipEntry :=
  if st.precompressed then st.entry
  else { st.entry with crc32 := st.hasher.finalize, uncompressedSize := UInt64.ofNat st.written }

/-- `EntryStreamWriter::close`, `src/base/write/entry_stream.rs:201-285`. -/
def closeStream {C : Codec} (st : EntryStream C) : Wr Unit := do
  encClose st.enc
  let w ← get
  let (e, h, cs, us, lhOffset) ←
    lift (streamSizes w.forceNoZip64 st.finalEntry st.lfh (w.writer.offset - st.dataOffset) st.lfhOffset)
  writeAll (le32 DATA_DESCRIPTOR_SIGNATURE)
  writeAll (le32 e.crc32)
  writeAll (le32 cs)
  writeAll (le32 us)
  let cdh ← lift (streamCdh e h cs us lhOffset)
  pushEntry { header := cdh, entry := e }

/-! ## Closing the archive -/

/-- One central directory record, `src/base/write/mod.rs:193-201`. -/
def writeCdEntry (c : CdEntry) : Wr Unit := do
  writeAll (le32 CDH_SIGNATURE)
  writeAll c.header.asSlice
  writeAll c.entry.filename.basic
  let extra ← lift (extraAsBytes c.entry.extraFields)
  writeAll extra
  writeAll c.entry.comment.basic

/-- The loop at `src/base/write/mod.rs:192-202`. -/
def writeCdEntries : List CdEntry → Wr Unit
  | [] => pure ()
  | c :: cs => do
    writeCdEntry c
    writeCdEntries cs

/-- `if n > NON_ZIP64_MAX_SIZE { NON_ZIP64_MAX_SIZE } else { n as u32 }`, `src/base/write/mod.rs:205-209,216-225`. -/
def clamp32 (n : Nat) : UInt32 := if n > 0xFFFFFFFF then NON_ZIP64_MAX_SIZE else UInt32.ofNat n
/-- `if n > NON_ZIP64_MAX_NUM_FILES { .. } else { n as u16 }`, `src/base/write/mod.rs:211-215`. -/
def clamp16 (n : Nat) : UInt16 := if n > 0xFFFF then NON_ZIP64_MAX_NUM_FILES else UInt16.ofNat n

/-- The ZIP64 end structures, `src/base/write/mod.rs:228-252`. -/
def writeZip64End (numEntries cdSize cdOffset : Nat) : Wr Unit := do
  let w ← get
  let eocdrOffset := w.writer.offset
  let eocdr : Zip64EndOfCentralDirectoryRecord :=
    { sizeOfRecord := 44
      versionMadeBy := asMadeBy
      versionNeeded := 46
      diskNumber := 0
      diskNumberStartOfCd := 0
      numEntriesOnDisk := UInt64.ofNat numEntries
      numEntries := UInt64.ofNat numEntries
      directorySize := UInt64.ofNat cdSize
      offsetOfStart := UInt64.ofNat cdOffset }
  writeAll (le32 ZIP64_EOCDR_SIGNATURE)
  writeAll eocdr.asBytes
  let eocdl : Zip64EndOfCentralDirectoryLocator :=
    { numberOfDisk := 0, relativeOffset := UInt64.ofNat eocdrOffset, totalNumberOfDisks := 1 }
  writeAll (le32 ZIP64_EOCDL_SIGNATURE)
  writeAll eocdl.asBytes

/-- The archive comment bytes, `src/base/write/mod.rs:261,266-268`. -/
def commentBytes (c : Option RString) : Bytes :=
  match c with
  | none => []
  | some s => s.bytes

/-- The end of central directory header, `src/base/write/mod.rs:254-262`; the comment length is cut to 16 bits. -/
def eocdrOf (numEntries cdSize cdOffset : Nat) (comment : Bytes) : EndOfCentralDirectoryHeader :=
  { diskNum := 0
    startCentDirDisk := 0
    numOfEntriesDisk := clamp16 numEntries
    numOfEntries := clamp16 numEntries
    sizeCentDir := clamp32 cdSize
    centDirOffset := clamp32 cdOffset
    fileCommLength := UInt16.ofNat comment.length }

/-- `src/base/write/mod.rs:216-225`: the offset check that may switch the archive to ZIP64. -/
def closeCheckOffset (cdOffset : Nat) : Wr Unit :=
  if cdOffset > 0xFFFFFFFF then do
    let w ← get
    if w.forceNoZip64 then fail (.err (.zip64Needed .largeFile))
    else modify fun w => { w with isZip64 := true }
  else pure ()

/-- `ZipFileWriter::close`, `src/base/write/mod.rs:189-271`; on success the sink is handed back. -/
def closeArchive : Wr Sink := do
  let w ← get
  let cdOffset := w.writer.offset
  writeCdEntries w.cdEntries
  let w1 ← get
  let cdSize := w1.writer.offset - cdOffset
  let numEntries := w.cdEntries.length
  closeCheckOffset cdOffset
  let w2 ← get
  (if w2.isZip64 then writeZip64End numEntries cdSize cdOffset else pure ())
  let header := eocdrOf numEntries cdSize cdOffset (commentBytes w.commentOpt)
  writeAll (le32 EOCDR_SIGNATURE)
  writeAll header.asSlice
  writeAll (commentBytes w.commentOpt)
  let w3 ← get
  pure w3.writer.sink

/-! ## Histories of API calls

A program using the writer, as data: the calls it makes, in order, with the sink's behaviour during each. -/

/-- A call on an open `EntryStreamWriter`. -/
inductive StreamAct where
  | write (buf : Bytes) (evs : List Ev)
  | flush (evs : List Ev)
  | shut (evs : List Ev)

/-- What the program finally does with an `EntryStreamWriter`: `close().await`, or drop it. -/
inductive StreamEnd where
  | close (evs : List Ev)
  | abandon

/-- A call on a `ZipFileWriter`. -/
inductive Op where
  | whole (e : ZipEntry) (data : Bytes) (precompressed : Bool) (evs : List Ev)
  | stream (e : ZipEntry) (precompressed : Bool) (evs : List Ev) (acts : List StreamAct) (fin : StreamEnd)
  | comment (c : RString)

/-- What the program observed of a call. -/
inductive OpResult where
  | whole (r : Res Unit)
  | stream (opened : Res Unit) (acts : List (Res Nat)) (fin : Option (Res Unit))
  | comment

/-- Run the calls on an open stream. The result of a flush or of `poll_close` is reported as 0 bytes. -/
def runActs {C : Codec} (zw : ZipWriter) (st : EntryStream C) : List StreamAct →
    List (Res Nat) × ZipWriter × EntryStream C
  | [] => ([], zw, st)
  | .write buf evs :: acts =>
    match streamWrite zw st buf evs with
    | (r, zw', st') =>
      match runActs zw' st' acts with
      | (rs, zw'', st'') => (r :: rs, zw'', st'')
  | .flush evs :: acts =>
    match streamFlush zw st evs with
    | (r, zw', st') =>
      match runActs zw' st' acts with
      | (rs, zw'', st'') => (r.map (fun _ => 0) :: rs, zw'', st'')
  | .shut evs :: acts =>
    match streamShut zw st evs with
    | (r, zw', st') =>
      match runActs zw' st' acts with
      | (rs, zw'', st'') => (r.map (fun _ => 0) :: rs, zw'', st'')

/-- Run one call. -/
def runOp (C : Codec) (zw : ZipWriter) : Op → OpResult × ZipWriter
  | .whole e data pre evs =>
    match writeWhole C e data pre { zw, evs } with
    | (r, s) => (.whole r, s.zw)
  | .stream e pre evs acts fin =>
    match openStream C e pre { zw, evs } with
    | (.error x, s) => (.stream (.error x) [] none, s.zw)
    | (.ok st, s) =>
      match runActs s.zw st acts with
      | (rs, zw', st') =>
        match fin with
        | .abandon => (.stream (.ok ()) rs none, zw')
        | .close evs' =>
          match closeStream st' { zw := zw', evs := evs' } with
          | (r, s'') => (.stream (.ok ()) rs (some r), s''.zw)
  | .comment c => (.comment, zw.setComment c)

/-- Run a program. -/
def runOps (C : Codec) (zw : ZipWriter) : List Op → List OpResult × ZipWriter
  | [] => ([], zw)
  | op :: ops =>
    match runOp C zw op with
    | (r, zw') =>
      match runOps C zw' ops with
      | (rs, zw'') => (r :: rs, zw'')

/-- Run a program and close the archive. -/
def runArchive (C : Codec) (zw : ZipWriter) (ops : List Op) (evs : List Ev) : List OpResult × Res Sink × ZipWriter :=
  match runOps C zw ops with
  | (rs, zw') =>
    match closeArchive { zw := zw', evs } with
    | (r, s) => (rs, r, s.zw)

end AsyncZip
