import Verif.Proofs.Behind
import Verif.Props.Fields
/-!
# C57: writing to a sink that already holds something
-/

namespace AsyncZip
open Spec Rd

/-- Writers created alike on an untouched sink and on one that already holds something. -/
theorem Created.behind {pre : Sink} {zw : ZipWriter} (h : Created ⟨[], 0, 0⟩ zw) : Created pre (ZipWriter.behind pre zw) := by
  induction h with
  | new =>
    rw [show ZipWriter.behind pre (.new ⟨[], 0, 0⟩) = .new pre by simp [ZipWriter.behind, ZipWriter.new, Sink.behind]]
    exact .new
  | noZip64 _ ih => exact .noZip64 ih
  | zip64 _ ih => exact .zip64 ih

/-- C57. A program run on a sink that already holds something (has been flushed, closed) gets the same results, call by
call, as on an untouched one: `close` succeeds or fails alike, and the sink then holds what it held before followed by
exactly the same archive. This goes for any program, codec and behaviour of the sink. -/
theorem C57_same_archive (C : Codec) (pre : Sink) (zw : ZipWriter) (h : Created ⟨[], 0, 0⟩ zw) (ops : List Op) (evs : List Ev) :
    ∃ zw', Created pre zw' ∧ zw'.forceNoZip64 = zw.forceNoZip64 ∧ zw'.isZip64 = zw.isZip64 ∧
      (runArchive C zw' ops evs).1 = (runArchive C zw ops evs).1 ∧
      (∀ x, (runArchive C zw' ops evs).2.1 = .error x ↔ (runArchive C zw ops evs).2.1 = .error x) ∧
      (∀ sink, (runArchive C zw ops evs).2.1 = .ok sink →
        (runArchive C zw' ops evs).2.1 =
          .ok ⟨pre.bytes ++ sink.bytes, pre.flushes + sink.flushes, pre.closes + sink.closes⟩) ∧
      (runArchive C zw' ops evs).2.2.writer.sink.bytes =
        pre.bytes ++ (runArchive C zw ops evs).2.2.writer.sink.bytes := by
  refine ⟨ZipWriter.behind pre zw, Created.behind h, rfl, rfl, ?_⟩
  rw [Behind.runArchive]
  refine ⟨rfl, fun x => ?_, fun sink hs => ?_, rfl⟩
  · cases (runArchive C zw ops evs).2.1 <;> simp [Except.map]
  · simp only [hs]
    rfl

/-- C57 on data: a sample program, on a sink that holds a byte. -/
example : ∃ zw', Created ⟨[35], 4, 0⟩ zw' ∧
    (runArchive Samples.markCodec zw' Samples.program Samples.eager).2.1 = .ok ⟨35 :: Samples.programBytes, 5, 0⟩ := by
  obtain ⟨zw', h, _, _, _, _, h', _⟩ := C57_same_archive Samples.markCodec ⟨[35], 4, 0⟩ Samples.fresh .new Samples.program
    Samples.eager
  exact ⟨zw', h, h' _ Samples.program_archive.2.1⟩

/-- C57. But a reader of the whole file does not find the archive: offsets count from where the writer began. With one byte
before this archive, nobody opens it, from whatever position and however the source answers. -/
theorem C57_whole_file_fails (b : Build) (hb : 1 ≤ b.maxVecEntries) : ∃ sink',
    (runArchive Samples.markCodec (.new ⟨[35], 0, 0⟩) Samples.fielded Samples.eager).2.1 = .ok sink' ∧
    ∀ s : RState, s.data = sink'.bytes → Interrupted (openFile b s).1 ∨
      ∃ found, (openFile b s).1 = .error (.err (.unexpectedHeaderError found CDH_SIGNATURE)) := by
  refine ⟨⟨35 :: Samples.fieldedBytes, 0, 0⟩, ?_, fun s hs => ?_⟩
  · have := Behind.runArchive Samples.markCodec ⟨[35], 0, 0⟩ Samples.fresh Samples.fielded Samples.eager
    rw [show ZipWriter.behind ⟨[35], 0, 0⟩ Samples.fresh = .new ⟨[35], 0, 0⟩ from rfl] at this
    rw [this, Samples.fielded_archive.2.1]
    rfl
  have hl : LastEnd (35 :: Samples.fieldedBytes) 105 := lastEnd_of_decide (by decide +kernel)
  have hr : Runs (openFile b) (35 :: Samples.fieldedBytes) s.pos
      (.error (.err (.unexpectedHeaderError 0x014B5069 CDH_SIGNATURE))) 49 :=
    Runs.openFile (comment := []) (eo := ⟨0, 0, 1, 1, 59, 45, 0⟩) (re := .error _) hl.1 hl.2 (by decide +kernel)
      (by decide +kernel) (by decide +kernel)
      (fun p => ⟨_, Runs.readCombined_plain (x := ((35 :: Samples.fieldedBytes).drop 85).take 4) (by decide) (by decide +kernel)
        (by decide +kernel) (by decide +kernel)⟩) (by decide +kernel) (by decide +kernel)
      (Runs.cd hb (Runs.cdLoop_error (Runs.bind_error (Runs.bind (Runs.readExact (b := [105, 80, 75, 1]) (by decide +kernel) rfl)
        (Runs.ite_neg (by decide +kernel) Runs.fail)))))
  exact (hr.of_chunkIndep (openFile_chunkIndep b) s hs rfl).imp id fun h => ⟨_, h.1⟩

end AsyncZip
