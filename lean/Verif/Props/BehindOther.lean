import Verif.Props.Behind
import Verif.Props.Accepted
/-!
# C57: an archive behind another one
-/

namespace AsyncZip
open Spec Rd

namespace Samples

/-- One stored file, `a` with `hi`. -/
def earlier : List Op := [.whole (ZipEntry.new ⟨.utf8, [97], none⟩ .stored) [104, 105] false eager]

/-- One stored file, `b` with `ok`. -/
def later : List Op := [.whole (ZipEntry.new ⟨.utf8, [98], none⟩ .stored) [111, 107] false eager]

/-- What comes of the one. -/
def earlierBytes : Bytes :=
  [80, 75, 3, 4, 10, 0, 0, 8, 0, 0, 0, 0, 0, 0, 172, 42, 147, 216, 2, 0, 0, 0, 2, 0, 0, 0, 1, 0, 0, 0, 97, 104, 105, 80, 75, 1, 2, 63, 3,
   10, 0, 0, 8, 0, 0, 0, 0, 0, 0, 172, 42, 147, 216, 2, 0, 0, 0, 2, 0, 0, 0, 1, 0, 0, 0, 0, 0, 0, 0, 0, 0, 0, 0, 0, 0, 0, 0, 0, 0, 97, 80,
   75, 5, 6, 0, 0, 0, 0, 1, 0, 1, 0, 47, 0, 0, 0, 33, 0, 0, 0, 0, 0]

/-- What comes of the other. -/
def laterBytes : Bytes :=
  [80, 75, 3, 4, 10, 0, 0, 8, 0, 0, 0, 0, 0, 0, 71, 221, 220, 121, 2, 0, 0, 0, 2, 0, 0, 0, 1, 0, 0, 0, 98, 111, 107, 80, 75, 1, 2, 63, 3,
   10, 0, 0, 8, 0, 0, 0, 0, 0, 0, 71, 221, 220, 121, 2, 0, 0, 0, 2, 0, 0, 0, 1, 0, 0, 0, 0, 0, 0, 0, 0, 0, 0, 0, 0, 0, 0, 0, 0, 0, 98, 80,
   75, 5, 6, 0, 0, 0, 0, 1, 0, 1, 0, 47, 0, 0, 0, 33, 0, 0, 0, 0, 0]

/-- The directory record of the first. -/
def earlierHeader : CentralDirectoryRecord :=
  { vMadeBy := 831, vNeeded := 10, flags := ⟨false, false, true⟩, compression := 0, modTime := 0, modDate := 0
    crc := 3633523372, compressedSize := 2, uncompressedSize := 2, fileNameLength := 1, extraFieldLength := 0
    fileCommentLength := 0, diskStart := 0, interAttr := 0, exterAttr := 0, lhOffset := 0 }

/-- What the first contains. -/
def earlierFile : ZipFile :=
  { entries := [cdEntryOf earlierHeader [97] .stored [] []], zip64 := false, comment := ⟨.utf8, [], none⟩ }

theorem both_end : LastEnd (earlierBytes ++ laterBytes) 182 := lastEnd_of_decide (by unfold OccursAt; decide +kernel)

theorem both_open (b : Build) (hb : 1 ≤ b.maxVecEntries) (pos : Nat) :
    Runs (openFile b) (earlierBytes ++ laterBytes) pos (.ok earlierFile) 80 := by
  refine Runs.openFile (re := .ok earlierFile.entries) (comment := []) (eo := ⟨0, 0, 1, 1, 47, 33, 0⟩) both_end.1 both_end.2
    (by decide +kernel) (by decide +kernel) (by decide +kernel)
    (fun p => ⟨_, Runs.readCombined_plain (x := ((earlierBytes ++ laterBytes).drop 162).take 4) (by decide) (by decide +kernel)
      (by decide +kernel) (by decide +kernel)⟩) rfl rfl
    (Runs.cd hb ?_)
  exact Runs.cdLoop_cons (Runs.cdRecord (rest := (earlierBytes ++ laterBytes).drop 80) (xb := []) (by decide +kernel)
    rfl rfl rfl rfl (by rw [parseExtraFields, parseExtraLoop_short b _ _ [] (by decide)])) Runs.pure

end Samples

/-- C57, worse than not finding it: an archive with the file `b` is written, without an error, behind one with the file `a` that is
laid out alike. Whoever opens the result sees the file `a`, and reads it with its data; of `b` there is no sign. -/
theorem C57_mistaken_fails (b : Build) (hb : 1 ≤ b.maxVecEntries) : ∃ (sink sink' : Sink) (f : ZipFile) (e : StoredZipEntry),
    (runArchive Samples.markCodec (.new ⟨[], 0, 0⟩) Samples.earlier Samples.eager).2.1 = .ok sink ∧
    (runArchive Samples.markCodec (.new sink) Samples.later Samples.eager).2.1 = .ok sink' ∧
    (∀ s : RState, s.data = sink'.bytes → Interrupted (openFile b s).1 ∨ (openFile b s).1 = .ok f) ∧
    f.entries = [e] ∧ e.entry.filename.asStr = .ok [97] ∧
    ∀ (C : Codec) (chunk : Nat) (s : RState), 0 < chunk → s.data = sink'.bytes →
      Interrupted (checkedRead C f 0 chunk s).1 ∨ (checkedRead C f 0 chunk s).1 = .ok [104, 105] := by
  refine ⟨⟨Samples.earlierBytes, 0, 0⟩, ⟨Samples.earlierBytes ++ Samples.laterBytes, 0, 0⟩, Samples.earlierFile, _, ?_, ?_,
    fun s hs => ((Samples.both_open b hb s.pos).of_chunkIndep (openFile_chunkIndep b) s hs rfl).imp id (·.1), rfl, ?_,
    fun C chunk s hc hs => ?_⟩
  · decide +kernel
  · decide +kernel
  · decide +kernel
  · refine (Both.read (C := C) (d := [104, 105]) (data := Samples.earlierBytes ++ Samples.laterBytes)
      (i := ⟨[97], [], 0, 0, 0, 3633523372, 2, 2, 0, 0, [], [104, 105]⟩) ?_
      (rfl : Samples.earlierFile.entries[0]? = some _) hc hs).imp id fun h => ?_
    · refine ⟨⟨by decide +kernel, by decide +kernel, by decide +kernel, by decide +kernel, by decide +kernel,
        by decide +kernel, by decide +kernel, by decide +kernel, by decide +kernel, by decide +kernel⟩, by decide +kernel,
        by decide +kernel, by decide +kernel⟩
    · exact h.2 ⟨Or.inl ⟨rfl, rfl⟩, by decide +kernel⟩

end AsyncZip
