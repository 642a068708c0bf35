import Verif.Proofs.Precompressed
import Verif.Samples.ProgramRuns
/-!
# C96: compressing ahead of time makes no difference
-/

namespace AsyncZip
open Spec Wr

/-- C96. Take any program, and replace any number of its calls of `write_entry_whole` by calls of
`write_entry_whole_precompressed` with what `compress` makes of the data and an entry that has the `crc32` and the length of the
data set and agrees in what can be seen of it. Every call is told the same, the archive can be closed or not as before, and the sink
has the same bytes: whatever the sink does, in every configuration of the writer, for entries of any size. -/
theorem C96_whole (C : Codec) (zw : ZipWriter) (ops ops' : List Op) (evs : List Ev)
    (h : List.Forall₂ (AheadOfTime C) ops ops') :
    (runArchive C zw ops evs).1 = (runArchive C zw ops' evs).1 ∧
    (runArchive C zw ops evs).2.1 = (runArchive C zw ops' evs).2.1 ∧
    (runArchive C zw ops evs).2.2.writer = (runArchive C zw ops' evs).2.2.writer := by
  obtain ⟨mid, h1, h2⟩ := packed_exacts h
  obtain ⟨h3, h4⟩ := sim_runOps (C := C) h2 (Eq.refl (coreW true true zw))
  obtain ⟨k1, k2⟩ := sim_closeArchive ⟨_, evs⟩ ⟨_, evs⟩ ⟨h4, rfl⟩
  unfold runArchive
  rw [h1]
  exact ⟨h3, k1.eq, coreW_writer k2.1⟩

/-- C96. `compress` has something to return exactly if `write_entry_whole` can compress: for every method but the stored one, of
which there is nothing to compress, and Deflate64. So every call of `write_entry_whole` that does not panic has its counterpart. -/
theorem C96_counterpart (C : Codec) (e : ZipEntry) (d : Bytes) (evs : List Ev) (hm : e.compression ≠ .deflate64) :
    ∃ packed, AheadOfTime C (.whole e d false evs)
      (.whole ((e.withCrc32 (crc32Fn d)).withUncompressedSize (UInt64.ofNat d.length)) packed true evs) := by
  by_cases hs : e.compression = .stored
  · exact ⟨d, .packed d d evs ⟨rfl, rfl, rfl, rfl, rfl, rfl, rfl⟩ (Or.inl ⟨hs, rfl⟩) rfl rfl⟩
  · refine ⟨(C.feed (C.start e.compression e.compressionLevel) d).2 ++
      C.finish (C.feed (C.start e.compression e.compressionLevel) d).1,
      .packed d _ evs ⟨rfl, rfl, rfl, rfl, rfl, rfl, rfl⟩ (Or.inr ⟨hs, ?_⟩) rfl rfl⟩
    unfold compress
    split
    · contradiction
    · contradiction
    · rfl

/-- C96 for streams. If the entry has checksum and size of the data set before it is opened, streaming what `compress` makes of the
data at the default level gives the same archive as streaming the data in one piece; an entry that is stored may be streamed in any
pieces both times. The sinks may behave differently. -/
theorem C96_stream (C : Codec) (zw : ZipWriter) (ops ops' : List Op) (evs evs' : List Ev)
    (hs : ProgramsAheadOfTime C ops (runArchive C zw ops evs).1 ops' (runArchive C zw ops' evs').1)
    (h : Completed (runArchive C zw ops evs).2.1) (h' : Completed (runArchive C zw ops' evs').2.1) :
    (runArchive C zw ops evs).2 = (runArchive C zw ops' evs').2 := by
  have hz := runOps_streamAhead (C := C) ops ops' zw hs
  have h1 : (runArchive C zw ops evs).2 =
      ((closeArchive ⟨(runOps C zw ops).2, evs⟩).1, (closeArchive ⟨(runOps C zw ops).2, evs⟩).2.zw) := rfl
  have h2 : (runArchive C zw ops' evs').2 =
      ((closeArchive ⟨(runOps C zw ops').2, evs'⟩).1, (closeArchive ⟨(runOps C zw ops').2, evs'⟩).2.zw) := rfl
  rw [h1] at h ⊢
  rw [h2] at h' ⊢
  rw [← hz] at h' ⊢
  have := Determined.closeArchive.agree (zw := (runOps C zw ops).2) rfl rfl (completed_not h) (completed_not h')
  exact Prod.ext this.1 this.2

namespace Samples

/-- Two files, one of them compressed, written whole. -/
def plainCalls : List Op := [.whole storedEntry [104, 105] false slow, .whole deflatedEntry [7, 8, 9] false eager]

/-- The same, compressed by the caller. -/
def packedCalls : List Op :=
  [.whole storedEntry [104, 105] false slow,
   .whole ((deflatedEntry.withCrc32 (crc32Fn [7, 8, 9])).withUncompressedSize 3) [1, 7, 1, 8, 1, 9, 0] true eager]

theorem packedCalls_ahead : List.Forall₂ (AheadOfTime markCodec) plainCalls packedCalls :=
  .cons (.same _) (.cons (.packed _ _ _ ⟨rfl, rfl, rfl, rfl, rfl, rfl, rfl⟩ (Or.inr ⟨by decide, by decide +kernel⟩) rfl rfl) .nil)

/-- A file that is streamed with its checksum and size known. -/
def knownEntry : ZipEntry := (deflatedEntry.withCrc32 (crc32Fn [7, 8, 9])).withUncompressedSize 3

/-- Streaming the data. -/
def plainStream : List Op := [.stream knownEntry false eager [.write [7, 8, 9] [.pending, .accept 5]] (.close eager)]

/-- Streaming what `compress` makes of it, in two pieces. -/
def packedStream : List Op :=
  [.stream knownEntry true eager [.write [1, 7, 1] [.accept 5], .write [8, 1, 9, 0] [.accept 4]] (.close eager)]

end Samples

/-- C96, concretely: with a slow sink and one that takes everything. -/
example : (runArchive Samples.markCodec Samples.fresh Samples.plainCalls Samples.eager).2.1 =
    (runArchive Samples.markCodec Samples.fresh Samples.packedCalls Samples.eager).2.1 :=
  (C96_whole Samples.markCodec Samples.fresh _ _ Samples.eager Samples.packedCalls_ahead).2.1

/-- It is not about an archive that failed. -/
example : (runArchive Samples.markCodec Samples.fresh Samples.packedCalls Samples.eager).1 = [.whole (.ok ()), .whole (.ok ())] := by
  decide +kernel

example : ∃ packed, AheadOfTime Samples.markCodec (.whole Samples.deflatedEntry [7, 8, 9] false Samples.eager)
    (.whole ((Samples.deflatedEntry.withCrc32 (crc32Fn [7, 8, 9])).withUncompressedSize 3) packed true Samples.eager) :=
  C96_counterpart Samples.markCodec Samples.deflatedEntry [7, 8, 9] Samples.eager (by decide)

theorem Samples.packedStream_ahead : ProgramsAheadOfTime Samples.markCodec Samples.plainStream
    (runArchive Samples.markCodec Samples.fresh Samples.plainStream Samples.eager).1 Samples.packedStream
    (runArchive Samples.markCodec Samples.fresh Samples.packedStream Samples.slow).1 := by
  have h1 : (runArchive Samples.markCodec Samples.fresh Samples.plainStream Samples.eager).1 =
      [.stream (.ok ()) [.ok 3] (some (.ok ()))] := by decide +kernel
  have h2 : (runArchive Samples.markCodec Samples.fresh Samples.packedStream Samples.slow).1 =
      [.stream (.ok ()) [.ok 3, .ok 4] (some (.ok ()))] := by decide +kernel
  rw [h1, h2]
  refine .cons (.packed [1, 7, 1, 8, 1, 9, 0] _ _ _ _ _ _ _ _ _ _ (fun _ h => by cases h) (fun _ h => by cases h)
    (Or.inr ⟨by decide, by decide +kernel⟩) (Or.inr ⟨?_, by decide +kernel⟩) (by decide +kernel) rfl (by decide +kernel)
    (by decide +kernel)) .nil
  intro r hr
  simp only [List.mem_singleton] at hr
  exact ⟨3, hr⟩

/-- C96 for a stream, concretely. -/
example : (runArchive Samples.markCodec Samples.fresh Samples.plainStream Samples.eager).2 =
    (runArchive Samples.markCodec Samples.fresh Samples.packedStream Samples.slow).2 := by
  have key : ∀ {r : Res Sink}, r.toBool = true → Completed r := fun h e he => by
    rw [he] at h
    cases h
  exact C96_stream Samples.markCodec Samples.fresh _ _ _ _ Samples.packedStream_ahead (key (by decide +kernel))
    (key (by decide +kernel))

end AsyncZip
