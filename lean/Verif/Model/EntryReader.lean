import Verif.Model.Read
import Verif.Model.Codec
/-!
# Reading entries (`src/base/read/io/{entry,hashed,compressed,owned}.rs`, `src/base/read/{seek,mem,stream}.rs`,
`src/tokio/read/fs.rs`, `src/entry/mod.rs:187-211`)

`futures_lite::io::Take` limits an entry to its declared number of source bytes. A decompressing reader is the codec's
decoder applied to those bytes; it hands out its output in chunks chosen by the schedule, and moves the source past what
it consumed when it reaches its end of stream (the only point at which the crate hands the source back,
`stream.rs:153,166`).
-/

namespace AsyncZip
open Rd

/-- `ZipEntryReader`, `src/base/read/io/entry.rs:23-27`: `Take`'s remaining limit, the decoder's remaining run (`none`
before its first poll and for `Stored`), and the hasher of `HashedReader` (`hashed.rs:14-19`). -/
structure EntryReader where
  compression : Compression
  limit : Nat
  dec : Option DecodeResult
  hasher : Hasher

/-- `ZipEntryReader::new_with_owned` / `new_with_borrow`, `src/base/read/io/entry.rs:34-44`. Whether the source is owned or
borrowed makes no difference to reads. -/
def EntryReader.new (compression : Compression) (size : Nat) : EntryReader :=
  { compression, limit := size, dec := none, hasher := Hasher.new }

/-- How many bytes a ready decoder delivers when asked for `n`: some number the schedule chooses, at least one. -/
def awaitSched (n : Nat) (s : RState) : List RdResp → Res Nat × RState
  | [] => (.error .cancelled, { s with sched := some [] })
  | .pending :: rs => awaitSched n s rs
  | .error c :: rs => (.error (.err (.upstreamReadError (.other c))), { s with sched := some rs })
  | .chunk c :: rs => (.ok (min n (c + 1)), { s with sched := some rs })

/-- Wait until a decoder is ready with output. -/
def awaitChunk (n : Nat) : Rd Nat := fun s =>
  match s.sched with
  | none => (.ok n, s)
  | some rs => awaitSched n s rs

/-- The decoder's remaining run: as recorded, or (on the first poll) the decoding of the limited source. -/
def EntryReader.run (C : Codec) (er : EntryReader) (s : RState) : DecodeResult :=
  match er.dec with
  | some d => d
  | none => C.decode er.compression ((s.data.drop s.pos).take er.limit)

/-- The source once the decoder is done with it: everything it used has been consumed. -/
def RState.advance (s : RState) (k : Nat) : RState := { s with pos := s.pos + k }

/-- A ready decoder with remaining run `d` delivers `k` bytes, or end of stream, or its error (the kinds `InvalidData` and
`UnexpectedEof` are not distinguished). `HashedReader::poll_read` (`hashed.rs:49-55`) hashes what was delivered. -/
def EntryReader.deliver (er : EntryReader) (d : DecodeResult) (k : Nat) : Rd (Bytes × EntryReader) := fun s =>
  if d.out.length = 0 then
    if d.ok then
      (.ok ([], { er with limit := er.limit - d.used, dec := some { out := [], used := 0, ok := true } }),
        s.advance d.used)
    else (.error (.err (.upstreamReadError .invalidData)), s)
  else
    (.ok (d.out.take k,
      { er with dec := some { d with out := d.out.drop k }, hasher := er.hasher.update (d.out.take k) }), s)

/-- `ZipEntryReader::read` into a buffer of length `n`: `AsyncRead` for `ZipEntryReader` (`entry.rs:54-61`), `HashedReader`
(`hashed.rs:45-56`), `CompressedReader` (`compressed.rs:82-104`) and `Take`. -/
def EntryReader.read (C : Codec) (er : EntryReader) (n : Nat) : Rd (Bytes × EntryReader) := fun s =>
  if er.compression = .stored then
    if er.limit = 0 then (.ok ([], er), s)
    else
      match readOnce (min n er.limit) s with
      | (.ok b, s') => (.ok (b, { er with limit := er.limit - b.length, hasher := er.hasher.update b }), s')
      | (.error e, s') => (.error e, s')
  else if n = 0 then (.ok ([], er), s)
  else
    match awaitChunk n s with
    | (.error e, s') => (.error e, s')
    | (.ok k, s') => er.deliver (er.run C s) k s'

/-- Bytes that can still come out of the reader: the termination measure of the read loops. -/
def EntryReader.remaining (C : Codec) (er : EntryReader) (s : RState) : Nat :=
  if er.compression = .stored then er.limit else (er.run C s).out.length

theorem readSched_length_le {n : Nat} {s s' : RState} {rs : List RdResp} {b : Bytes}
    (h : readSched n s rs = (.ok b, s')) : b.length ≤ n := by
  induction rs with
  | nil => simp [readSched] at h
  | cons r rs ih =>
    cases r with
    | pending => exact ih (by simpa [readSched] using h)
    | error c => simp [readSched] at h
    | chunk c => simp only [readSched, Prod.mk.injEq, Except.ok.injEq] at h; rw [← h.1]; simp; omega

theorem readOnce_length_le {n : Nat} {s s' : RState} {b : Bytes} (h : readOnce n s = (.ok b, s')) : b.length ≤ n := by
  unfold readOnce at h
  split at h
  · simp only [Prod.mk.injEq, Except.ok.injEq] at h; rw [← h.1]; simp; omega
  · exact readSched_length_le h

theorem EntryReader.read_remaining_lt {C : Codec} {er er' : EntryReader} {n : Nat} {s s' : RState} {b : Bytes}
    (h : er.read C n s = (.ok (b, er'), s')) (hb : b ≠ []) : er'.remaining C s' < er.remaining C s := by
  have hpos := List.length_pos_iff.2 hb
  unfold EntryReader.read at h
  split at h
  · rename_i hc
    split at h
    · simp only [Prod.mk.injEq, Except.ok.injEq] at h; simp [← h.1.1] at hb
    · split at h
      · rename_i hr
        simp only [Prod.mk.injEq, Except.ok.injEq] at h
        have := readOnce_length_le hr
        obtain ⟨⟨rfl, rfl⟩, rfl⟩ := h
        simp only [EntryReader.remaining, hc, if_true]
        omega
      · simp at h
  · rename_i hc
    split at h
    · simp only [Prod.mk.injEq, Except.ok.injEq] at h; simp [← h.1.1] at hb
    · split at h
      · simp at h
      · unfold EntryReader.deliver at h
        split at h
        · split at h
          · simp only [Prod.mk.injEq, Except.ok.injEq] at h; simp [← h.1.1] at hb
          · simp at h
        · simp only [Prod.mk.injEq, Except.ok.injEq] at h
          obtain ⟨⟨rfl, rfl⟩, rfl⟩ := h
          simp only [EntryReader.remaining, hc, if_false, EntryReader.run, List.length_drop, List.length_take] at *
          omega

/-- Read with buffers of length `chunk` until a read returns zero bytes: `AsyncReadExt::read_to_end` (where the buffer
is the spare capacity of the vector) and the loop of `skip` (`src/base/read/stream.rs:165`, buffers of 2048). -/
def EntryReader.readLoop (C : Codec) (chunk : Nat) (er : EntryReader) (acc : Bytes) (s : RState) :
    Res (Bytes × EntryReader) × RState :=
  match _h : er.read C chunk s with
  | (.ok (b, er'), s') => if _hb : b = [] then (.ok (acc, er'), s') else EntryReader.readLoop C chunk er' (acc ++ b) s'
  | (.error e, s') => (.error e, s')
termination_by er.remaining C s
decreasing_by exact EntryReader.read_remaining_lt _h _hb

/-- Where a `read_to_end` that fails leaves off: the bytes it had read, which stay in the caller's vector
(`AsyncReadExt::read_to_end` keeps the vector's length at what was read, on an error and when it is dropped), and the
entry reader, which the caller still has. `src/base/read/io/entry.rs:54-61`. -/
def EntryReader.readPart (C : Codec) (chunk : Nat) (er : EntryReader) (acc : Bytes) (s : RState) : Bytes × EntryReader :=
  match _h : er.read C chunk s with
  | (.ok (b, er'), s') => if _hb : b = [] then (acc, er') else EntryReader.readPart C chunk er' (acc ++ b) s'
  | (.error _, _) => (acc, er)
termination_by er.remaining C s
decreasing_by exact EntryReader.read_remaining_lt _h _hb

/-- `compute_hash`, `src/base/read/io/entry.rs:70-72`, `hashed.rs:35-37`: the hasher is replaced by a fresh one. -/
def EntryReader.computeHash (er : EntryReader) : UInt32 × EntryReader :=
  (er.hasher.finalize, { er with hasher := Hasher.new })

/-- `AsyncReadExt::read_to_end`. -/
def EntryReader.readToEnd (C : Codec) (chunk : Nat) (er : EntryReader) : Rd (Bytes × EntryReader) :=
  fun s => er.readLoop C chunk [] s

/-- `read_to_end_checked`, `src/base/read/io/entry.rs:92-100`; `crc` is the entry's recorded checksum. -/
def EntryReader.readToEndChecked (C : Codec) (chunk : Nat) (er : EntryReader) (crc : UInt32) :
    Rd (Bytes × EntryReader) := do
  let (b, er) ← er.readToEnd C chunk
  let (h, er) := er.computeHash
  if h = crc then pure (b, er) else throwErr .crc32CheckError

/-- `read_to_string_checked`, `src/base/read/io/entry.rs:105-113`; `AsyncReadExt::read_to_string` reports bytes that are
not UTF-8 as `InvalidData`. -/
def EntryReader.readToStringChecked (C : Codec) (chunk : Nat) (er : EntryReader) (crc : UInt32) :
    Rd (RString × EntryReader) := do
  let (b, er) ← er.readToEnd C chunk
  if hv : utf8Valid b = true then
    let (h, er) := er.computeHash
    if h = crc then pure (⟨b, hv⟩, er) else throwErr .crc32CheckError
  else throwErr (.upstreamReadError .invalidData)

/-! ## Seekable, in-memory and file readers -/

/-- `seek_to_data_offset`, `src/entry/mod.rs:188-211`. -/
def seekToDataOffset (e : StoredZipEntry) : Rd Unit := do
  let _ ← seekStart e.fileOffset
  let sig ← readExact 4
  let actual := fromLe32 sig
  if actual = LFH_SIGNATURE then do
    let header ← LocalFileHeader.fromReader
    let _ ← seekForward (header.fileNameLength.toNat + header.extraFieldLength.toNat)
    pure ()
  else throwErr (.unexpectedHeaderError actual LFH_SIGNATURE)

/-- `reader_without_entry`, `src/base/read/seek.rs:85-94`; also `into_entry` (`113-128`), and, with a fresh source at
position 0, `mem.rs:119-130` and `tokio/read/fs.rs:126-140`. -/
def readerWithoutEntry (f : ZipFile) (index : Nat) : Rd EntryReader :=
  match f.entries[index]? with
  | none => throwErr .entryIndexOutOfBounds
  | some e => do
    seekToDataOffset e
    pure (EntryReader.new e.entry.compression e.entry.compressedSize.toNat)

/-- `reader_with_entry`, `src/base/read/seek.rs:97-109`; `mem.rs:133-146`; `tokio/read/fs.rs:143-160`. -/
def readerWithEntry (f : ZipFile) (index : Nat) : Rd (EntryReader × ZipEntry) :=
  match f.entries[index]? with
  | none => throwErr .entryIndexOutOfBounds
  | some e => do
    seekToDataOffset e
    pure (EntryReader.new e.entry.compression e.entry.compressedSize.toNat, e.entry)

/-! ## Streaming reader -/

/-- `ZipFileReader<Reading<..>>`, `src/base/read/stream.rs:72`: the entry reader, the entry, and the data descriptor flag. -/
structure Reading where
  reader : EntryReader
  entry : ZipEntry
  dataDescriptor : Bool

/-- `next_with_entry`, `src/base/read/stream.rs:103-114` (`next_without_entry`, `90-100`, forgets the entry). -/
def streamNext (b : Build) : Rd (Option Reading) := do
  let e ← lfh b
  match e with
  | none => pure none
  | some entry =>
    let length := if entry.dataDescriptor then 2 ^ 64 - 1 else entry.compressedSize.toNat
    pure (some { reader := EntryReader.new entry.compression length, entry, dataDescriptor := entry.dataDescriptor })

/-- `consume_data_descriptor`, `src/base/read/stream.rs:177-187`. -/
def consumeDataDescriptor : Rd Unit := do
  let descriptor ← readExact DATA_DESCRIPTOR_LENGTH
  if slice descriptor 0 SIGNATURE_LENGTH = le32 DATA_DESCRIPTOR_SIGNATURE then do
    let _ ← readExact SIGNATURE_LENGTH
    pure ()
  else pure ()

/-- `done`, `src/base/read/stream.rs:148-161`; afterwards the source is `Ready`. -/
def Reading.done (C : Codec) (r : Reading) : Rd Unit := do
  let (b, _) ← r.reader.read C 1
  if b.length ≠ 0 then throwErr .eofNotReached
  else if r.dataDescriptor then consumeDataDescriptor else pure ()

/-- `skip`, `src/base/read/stream.rs:164-174`. -/
def Reading.skip (C : Codec) (r : Reading) : Rd Unit := do
  let _ ← r.reader.readToEnd C 2048
  if r.dataDescriptor then consumeDataDescriptor else pure ()

end AsyncZip
