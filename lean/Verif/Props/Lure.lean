import Verif.Samples.Lure
import Verif.Props.Comment
/-!
# C41: an entry comment that looks like a ZIP64 locator

A reader looks for the locator directly before the end record, which is where the comment of the last entry ends. That an
archive has no locator there is the condition `Legible.locator`; these are archives that do not meet it.
-/

namespace AsyncZip
open Spec Rd

/-- Opening fails as reading the end records does. -/
theorem Runs.openFile_combined {b : Build} {data comment : Bytes} {j pos pos' : Nat} {eo : EndOfCentralDirectoryHeader}
    {x : Fail} (ho : OccursAt data eocdrSig j) (hlast : ∀ j', OccursAt data eocdrSig j' → j' ≤ j)
    (hnear : data.length ≤ j + 65557) (hd : (data.drop (j + 4)).take 18 = eo.asSlice)
    (hc : (data.drop (j + 22)).take eo.fileCommLength.toNat = comment)
    (hr : ∀ p, Runs (readCombined b (j + 4) eo) data p (.error x) pos') :
    Runs (AsyncZip.openFile b) data pos (.error x) pos' := by
  unfold AsyncZip.openFile
  refine Runs.bind_any (locateEocdr_ideal ho hlast (by omega) pos) fun p1 => ?_
  refine Runs.bind Runs.seekStart ?_
  refine Runs.bind (a := eo) (pos1 := j + 4 + 18) ?_ ?_
  · refine Runs.bind (Runs.readExact hd (eocdr_length eo)) ?_
    rw [eocdr_ofBytes_asSlice]
    exact Runs.pure
  · refine Runs.bind (a := ZipString.new comment .utf8) (pos1 := j + 22 + comment.length) ?_ ?_
    · exact Runs.bind (Runs.readBytes hc) Runs.pure
    · exact Runs.bind_error (hr _)

/-- A locator that points behind the end. -/
theorem Runs.readCombined_eof {b : Build} {data rest : Bytes} {j pos : Nat} {eo : EndOfCentralDirectoryHeader}
    {l : Zip64EndOfCentralDirectoryLocator} (h : 20 ≤ j)
    (hl : data.drop (j - 20) = le32 ZIP64_EOCDL_SIGNATURE ++ (l.asBytes ++ rest))
    (hfit : l.relativeOffset.toNat + 4 < 2 ^ 64) (hz : data.length ≤ l.relativeOffset.toNat + 4) :
    Runs (AsyncZip.readCombined b (j + 4) eo) data pos (.error (.err (.upstreamReadError .unexpectedEof)))
      (l.relativeOffset.toNat + 4) := by
  unfold AsyncZip.readCombined
  refine Runs.ite_neg (by simp only [ZIP64_EOCDL_LENGTH, SIGNATURE_LENGTH]; omega) ?_
  rw [show j + 4 - (ZIP64_EOCDL_LENGTH + SIGNATURE_LENGTH) = j - 20 by
    simp only [ZIP64_EOCDL_LENGTH, SIGNATURE_LENGTH]; omega]
  refine Runs.bind Runs.seekStart (Runs.bind (Runs.locatorAt hl) ?_)
  have hadd : addU64 b l.relativeOffset.toNat SIGNATURE_LENGTH = .ok (l.relativeOffset.toNat + 4) := by
    rw [addU64, SIGNATURE_LENGTH, if_pos hfit]
  simp only []
  rw [hadd]
  have hn : (data.drop (l.relativeOffset.toNat + 4)).length = 0 := by
    rw [List.length_drop]
    omega
  have he := Runs.readExact_eof (data := data) (pos := l.relativeOffset.toNat + 4) (n := 52)
    (by rw [hn]; decide)
  rw [hn] at he
  exact Runs.bind Runs.lift (Runs.bind Runs.seekStart (Runs.bind_error (Runs.bind_error he)))

namespace Samples

theorem lure_archive : (runArchive markCodec fresh lure eager).2.1 = .ok ⟨lureBytes, 0, 0⟩ := by decide +kernel

theorem trap_archive : (runArchive markCodec fresh trap eager).2.1 = .ok ⟨trapBytes, 0, 0⟩ := by decide +kernel

end Samples

/-- C41 as written does not hold for every entry: the writer accepts an entry whose comment ends like a ZIP64 locator,
`close` succeeds, and no reader opens the archive, from whatever position and however the source answers. -/
theorem C41_locator_fails : ∃ sink',
    (runArchive Samples.markCodec Samples.fresh Samples.lure Samples.eager).2.1 = .ok sink' ∧
    ∀ (b : Build) (s : RState), s.data = sink'.bytes → Interrupted (openFile b s).1 ∨
      (openFile b s).1 = .error (.err (.upstreamReadError .unexpectedEof)) := by
  refine ⟨⟨Samples.lureBytes, 0, 0⟩, Samples.lure_archive, fun b s hs => ?_⟩
  have hl : LastEnd Samples.lureBytes 104 := lastEnd_of_decide (by decide +kernel)
  have hr : Runs (openFile b) Samples.lureBytes s.pos (.error (.err (.upstreamReadError .unexpectedEof))) 2130706436 :=
    Runs.openFile_combined (comment := []) (eo := ⟨0, 0, 1, 1, 69, 35, 0⟩) hl.1 hl.2 (by decide +kernel)
      (by decide +kernel) (by decide +kernel) fun p =>
        Runs.readCombined_eof (l := ⟨0, 2130706432, 1⟩) (rest := Samples.lureBytes.drop 104) (by decide)
          (by decide +kernel) (by decide) (by decide +kernel)
  exact (hr.of_chunkIndep (openFile_chunkIndep b) s hs rfl).imp id fun h => h.1

/-- With another comment, where overflow is checked, every reader of the archive panics. -/
theorem C41_locator_panics_fails : ∃ sink',
    (runArchive Samples.markCodec Samples.fresh Samples.trap Samples.eager).2.1 = .ok sink' ∧
    ∀ (b : Build) (s : RState), b.overflowChecks = true → s.data = sink'.bytes →
      Interrupted (openFile b s).1 ∨ (openFile b s).1 = .error .panic := by
  refine ⟨⟨Samples.trapBytes, 0, 0⟩, Samples.trap_archive, fun b s hb hs => ?_⟩
  have hl : LastEnd Samples.trapBytes 128 := lastEnd_of_decide (by decide +kernel)
  have hr : Runs (openFile b) Samples.trapBytes s.pos (.error .panic) 128 :=
    Runs.openFile_combined (comment := []) (eo := ⟨0, 0, 1, 1, 81, 47, 0⟩) hl.1 hl.2 (by decide +kernel)
      (by decide +kernel) (by decide +kernel) fun p =>
        Runs.readCombined_overflow (l := ⟨0, 0xFFFFFFFFFFFFFFFF, 1⟩) (rest := Samples.trapBytes.drop 128) (by decide)
          (by decide +kernel) (by decide) hb
  exact (hr.of_chunkIndep (openFile_chunkIndep b) s hs rfl).imp id fun h => h.1

end AsyncZip
