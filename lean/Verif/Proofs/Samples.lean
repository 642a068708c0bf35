import Verif.Proofs.OpenRuns
import Verif.Proofs.Extra
import Verif.Samples.Archives
/-!
# What opening the sample archives gives
-/

namespace AsyncZip
open Spec Rd

namespace Samples

theorem one_end : OccursAt one eocdrSig 102 ∧ ∀ j', OccursAt one eocdrSig j' → j' ≤ 102 :=
  lastEnd_of_decide (by unfold OccursAt; decide +kernel)

/-- The directory header of `one`. -/
def oneHeader : CentralDirectoryRecord :=
  { vMadeBy := 788, vNeeded := 20, flags := ⟨false, false, false⟩, compression := 0, modTime := 6275, modDate := 20514
    crc := 3633523372, compressedSize := 2, uncompressedSize := 2, fileNameLength := 5, extraFieldLength := 6
    fileCommentLength := 2, diskStart := 0, interAttr := 0, exterAttr := 27525120, lhOffset := 0 }

/-- The end record of `one`. -/
def oneEnd : EndOfCentralDirectoryHeader :=
  { diskNum := 0, startCentDirDisk := 0, numOfEntriesDisk := 1, numOfEntries := 1, sizeCentDir := 59, centDirOffset := 43
    fileCommLength := 1 }

/-- What `one` contains. -/
def oneFile : ZipFile :=
  { entries := [cdEntryOf oneHeader [97, 46, 116, 120, 116] .stored [.unknown ⟨0x7799, 2, [1, 2]⟩] [111, 107]]
    zip64 := false
    comment := ⟨.utf8, [99], none⟩ }

theorem oneExtra (b : Build) : parseExtraFields b [153, 119, 2, 0, 1, 2] 2 2 = .ok [.unknown ⟨0x7799, 2, [1, 2]⟩] := by
  have := parseExtraLoop_step b 2 2 0x7799 2 [1, 2] [] rfl (by decide)
  rw [show le16 0x7799 ++ (le16 2 ++ ([1, 2] ++ [])) = [153, 119, 2, 0, 1, 2] by decide,
    parseExtraLoop_short b 2 2 [] (by decide)] at this
  rw [parseExtraFields, this]
  rfl

theorem one_opens (b : Build) (hb : 1 ≤ b.maxVecEntries) (pos : Nat) :
    Runs (openFile b) one pos (.ok oneFile) 102 := by
  refine Runs.openFile (re := .ok oneFile.entries) (comment := [99]) (eo := oneEnd) one_end.1 one_end.2 (by decide +kernel)
    (by decide +kernel) (by decide +kernel)
    (fun p => ⟨_, Runs.readCombined_plain (by decide) rfl (by decide +kernel) (by decide +kernel)⟩) rfl rfl
    (Runs.cd hb ?_)
  refine Runs.cdLoop_cons (Runs.cdRecord (rest := one.drop 102) (xb := [153, 119, 2, 0, 1, 2]) (by decide +kernel)
    rfl rfl rfl rfl (oneExtra b)) Runs.pure

/-- The directory header of `truncated`. -/
def truncatedHeader : CentralDirectoryRecord := { oneHeader with fileCommentLength := 255 }

theorem truncated_end : OccursAt truncated eocdrSig 102 ∧ ∀ j', OccursAt truncated eocdrSig j' → j' ≤ 102 :=
  lastEnd_of_decide (by unfold OccursAt; decide +kernel)

/-- What opening `truncated` gives: the comment swallowed the end record. -/
def truncatedFile : ZipFile :=
  { entries := [cdEntryOf truncatedHeader [97, 46, 116, 120, 116] .stored [.unknown ⟨0x7799, 2, [1, 2]⟩] (truncated.drop 100)]
    zip64 := false
    comment := ⟨.utf8, [99], none⟩ }

theorem truncated_record (b : Build) : Runs (cdRecord b) truncated 43 (.ok truncatedFile.entries[0]) 125 := by
  have h : truncated.drop 43 = le32 CDH_SIGNATURE ++ (truncatedHeader.asSlice ++ ([97, 46, 116, 120, 116] ++
    ([153, 119, 2, 0, 1, 2] ++ truncated.drop 100))) := by decide +kernel
  have h1 := drop_append_of_drop h rfl
  have h2 := drop_append_of_drop h1 (cdr_length truncatedHeader)
  have h3 := drop_append_of_drop h2 rfl
  unfold cdRecord
  refine Runs.bind (Runs.assertSignature h) <| Runs.bind (Runs.cdHeader h1) <| Runs.bind (Runs.bytesAt h2 rfl) ?_
  refine Runs.bind (a := .stored) Runs.lift <| Runs.bind (Runs.bytesAt h3 rfl) ?_
  refine Runs.bind (Runs.liftOk (show parseExtraFields b _ truncatedHeader.uncompressedSize _ = _ from oneExtra b)) ?_
  refine Runs.bind (Runs.readBytes (b := truncated.drop 100) (by decide +kernel)) ?_
  exact Runs.pure

theorem truncated_opens (b : Build) (hb : 1 ≤ b.maxVecEntries) (pos : Nat) :
    Runs (openFile b) truncated pos (.ok truncatedFile) 125 := by
  refine Runs.openFile (re := .ok truncatedFile.entries) (comment := [99]) (eo := oneEnd) truncated_end.1 truncated_end.2
    (by decide +kernel) (by decide +kernel) (by decide +kernel)
    (fun p => ⟨_, Runs.readCombined_plain (by decide) rfl (by decide +kernel) (by decide +kernel)⟩) rfl rfl
    (Runs.cd hb ?_)
  exact Runs.cdLoop_cons (truncated_record b) Runs.pure

theorem overlong_end : OccursAt overlong eocdrSig 102 ∧ ∀ j', OccursAt overlong eocdrSig j' → j' ≤ 102 :=
  lastEnd_of_decide (by unfold OccursAt; decide +kernel)

theorem overlong_panics (b : Build) (hc : b.overflowChecks = true) (hb : 1 ≤ b.maxVecEntries) (pos : Nat) :
    ∃ p, Runs (openFile b) overlong pos (.error .panic) p := by
  have hx : parseExtraFields b [153, 119, 200, 0, 1, 2] 2 2 = .error .panic := by
    unfold parseExtraFields parseExtraLoop
    simp [slice, fromLe16, leNat, extraRemaining, hc]
  refine ⟨_, Runs.openFile (re := .error .panic) (comment := [99]) (eo := oneEnd) overlong_end.1 overlong_end.2
    (by decide +kernel) (by decide +kernel) (by decide +kernel)
    (fun p => ⟨_, Runs.readCombined_plain (by decide) rfl (by decide +kernel) (by decide +kernel)⟩) rfl rfl
    (Runs.cd hb (Runs.cdLoop_error (Runs.cdRecord_panic (rest := overlong.drop 100) (hd := oneHeader)
      (name := [97, 46, 116, 120, 116]) (xb := [153, 119, 200, 0, 1, 2]) (c := .stored) (by decide +kernel) rfl rfl rfl hx)))⟩

/-- The end record of `huge`. -/
def hugeEnd : EndOfCentralDirectoryHeader :=
  { diskNum := 0, startCentDirDisk := 0, numOfEntriesDisk := 0xFFFF, numOfEntries := 0xFFFF, sizeCentDir := 0
    centDirOffset := 0, fileCommLength := 0 }
/-- The ZIP64 end record of `huge`. -/
def hugeRecord : Zip64EndOfCentralDirectoryRecord :=
  { sizeOfRecord := 44, versionMadeBy := 45, versionNeeded := 45, diskNumber := 0, diskNumberStartOfCd := 0
    numEntriesOnDisk := 0xFFFFFFFFFFFFFFFF, numEntries := 0xFFFFFFFFFFFFFFFF, directorySize := 0, offsetOfStart := 0 }
/-- The locator of `huge`. -/
def hugeLocator : Zip64EndOfCentralDirectoryLocator := { numberOfDisk := 0, relativeOffset := 0, totalNumberOfDisks := 1 }

theorem huge_end : OccursAt huge eocdrSig 76 ∧ ∀ j', OccursAt huge eocdrSig j' → j' ≤ 76 :=
  lastEnd_of_decide (by unfold OccursAt; decide +kernel)

theorem huge_panics (b : Build) (hb : b.maxVecEntries < 2 ^ 64 - 1) (pos : Nat) :
    ∃ p, Runs (openFile b) huge pos (.error .panic) p := by
  refine ⟨_, Runs.openFile (re := .error .panic) (rec := CombinedRecord.combine hugeEnd hugeRecord) (comment := [])
    (eo := hugeEnd) huge_end.1 huge_end.2
    (by decide +kernel) (by decide +kernel) (by decide +kernel)
    (fun p => ⟨_, Runs.readCombined_zip64 (l := hugeLocator) (rest := huge.drop 76) (rest' := huge.drop 56) (by decide)
      (by decide +kernel) (by decide) (by decide +kernel)⟩) rfl rfl (Runs.cd_capacity hb)⟩

/-- The end record of `farLocator`. -/
def farEnd : EndOfCentralDirectoryHeader :=
  { diskNum := 0, startCentDirDisk := 0, numOfEntriesDisk := 0, numOfEntries := 0, sizeCentDir := 0
    centDirOffset := 0, fileCommLength := 0 }

theorem farLocator_end : OccursAt farLocator eocdrSig 20 ∧ ∀ j', OccursAt farLocator eocdrSig j' → j' ≤ 20 :=
  lastEnd_of_decide (by unfold OccursAt; decide +kernel)

theorem farLocator_panics (b : Build) (hc : b.overflowChecks = true) (pos : Nat) :
    ∃ p, Runs (openFile b) farLocator pos (.error .panic) p := by
  refine ⟨20, ?_⟩
  unfold openFile
  refine Runs.bind_any (locateEocdr_ideal farLocator_end.1 farLocator_end.2 (by decide +kernel) pos) fun p1 => ?_
  refine Runs.bind Runs.seekStart ?_
  refine Runs.bind (a := farEnd) (pos1 := 42) ?_ ?_
  · refine Runs.bind (Runs.readExact (b := farEnd.asSlice) (by decide +kernel) (by decide +kernel)) ?_
    rw [eocdr_ofBytes_asSlice]
    exact Runs.pure
  · refine Runs.bind (a := ZipString.new [] .utf8) (pos1 := 42) ?_ ?_
    · exact Runs.bind (Runs.readBytes (b := []) (by decide +kernel)) Runs.pure
    · exact Runs.bind_error (Runs.readCombined_overflow (j := 20)
        (l := { numberOfDisk := 0, relativeOffset := 0xFFFFFFFFFFFFFFFF, totalNumberOfDisks := 1 })
        (rest := farLocator.drop 20) (by decide) (by decide +kernel) (by decide) hc)

end Samples
end AsyncZip
