import Verif.Props.Own
import Verif.Props.Streaming
/-!
# C61: encrypted entries
-/

namespace AsyncZip
open Spec Rd

/-- C61, the part that holds: the streaming reader never returns an entry whose header has the encryption bit, whatever the
data, the source's behaviour and the build. -/
theorem C61_streaming_partial (B : Build) (s s' : RState) (x : Option Reading) (h : streamNext B s = (.ok x, s'))
    (hs : OccursAt s.data sigLocal s.pos) : (fieldAt s.data (s.pos + 6) 2).testBit 0 = false := by
  rcases C31_accepts_only B s s' x h with ⟨_, hc⟩ | ⟨r, _, _, _, hb, _⟩
  · exfalso
    unfold OccursAt at hs hc
    rw [show sigCentral.length = sigLocal.length from rfl, hs] at hc
    revert hc
    decide
  · exact hb

namespace Samples

/-- `one` with the encryption bit set in the local header and in the directory record. -/
def coded : Bytes := [
    80, 75, 3, 4, 20, 0, 1, 0, 0, 0, 131, 24, 34, 80, 172, 42, 147, 216, 2, 0, 0, 0, 2, 0,
    0, 0, 5, 0, 6, 0, 97, 46, 116, 120, 116, 153, 119, 2, 0, 1, 2, 104, 105, 80, 75, 1, 2, 20,
    3, 20, 0, 1, 0, 0, 0, 131, 24, 34, 80, 172, 42, 147, 216, 2, 0, 0, 0, 2, 0, 0, 0, 5,
    0, 6, 0, 2, 0, 0, 0, 0, 0, 0, 0, 164, 1, 0, 0, 0, 0, 97, 46, 116, 120, 116, 153, 119,
    2, 0, 1, 2, 111, 107, 80, 75, 5, 6, 0, 0, 0, 0, 1, 0, 1, 0, 59, 0, 0, 0, 43, 0,
    0, 0, 1, 0, 99]

theorem coded_end : OccursAt coded eocdrSig 102 ∧ ∀ j', OccursAt coded eocdrSig j' → j' ≤ 102 :=
  lastEnd_of_decide (by unfold OccursAt; decide +kernel)

/-- The directory header of `coded`. -/
def codedHeader : CentralDirectoryRecord := { oneHeader with flags := ⟨true, false, false⟩ }

theorem coded_opens (b : Build) (hb : 1 ≤ b.maxVecEntries) (pos : Nat) :
    Runs (openFile b) coded pos (.ok oneFile) 102 := by
  refine Runs.openFile (re := .ok oneFile.entries) (comment := [99]) (eo := oneEnd) coded_end.1 coded_end.2
    (by decide +kernel) (by decide +kernel) (by decide +kernel)
    (fun p => ⟨_, Runs.readCombined_plain (by decide) rfl (by decide +kernel) (by decide +kernel)⟩) rfl rfl
    (Runs.cd hb ?_)
  refine Runs.cdLoop_cons (Runs.cdRecord (hd := codedHeader) (rest := coded.drop 102) (xb := [153, 119, 2, 0, 1, 2])
    (by decide +kernel) rfl rfl rfl rfl (oneExtra b)) Runs.pure

end Samples

/-- C61 as written does not hold: the other readers list an entry marked as encrypted like any other (the listing does not
even say so), and serve the ciphertext as its data; no sequence of calls tells it from an entry that is not encrypted. -/
theorem C61_seekable_fails : ∃ (coded plain : Bytes) (f : ZipFile) (e : StoredZipEntry), f.entries = [e] ∧
    (fieldAt coded (e.fileOffset + 6) 2).testBit 0 = true ∧ (fieldAt coded (43 + 8) 2).testBit 0 = true ∧
    (fieldAt plain (e.fileOffset + 6) 2).testBit 0 = false ∧ (fieldAt plain (43 + 8) 2).testBit 0 = false ∧
    (∀ (B : Build), 1 ≤ B.maxVecEntries → ∀ s : RState, (s.data = coded ∨ s.data = plain) →
      Interrupted (openFile B s).1 ∨ (openFile B s).1 = .ok f) ∧
    ∀ (C : Codec) (calls : List Call) (sched : Option (List RdResp)),
      (seekSession C f calls (none, ⟨coded, 0, sched, []⟩)).1 = (seekSession C f calls (none, ⟨plain, 0, sched, []⟩)).1 := by
  refine ⟨Samples.coded, Samples.one, Samples.oneFile, Samples.oneFile.entries[0], rfl, by decide +kernel, by decide +kernel,
    by decide +kernel, by decide +kernel, fun B hb s hs => ?_, fun C calls sched => ?_⟩
  · rcases hs with hs | hs
    · exact ((Samples.coded_opens B hb s.pos).of_chunkIndep (openFile_chunkIndep B) s hs rfl).imp id fun h => h.1
    · exact ((Samples.one_opens B hb s.pos).of_chunkIndep (openFile_chunkIndep B) s hs rfl).imp id fun h => h.1
  · refine C51_seekable C _ calls _ _ 0 sched fun i _ e he => ?_
    obtain rfl : Samples.oneFile.entries[0] = e := by
      cases i with
      | zero => exact Option.some.inj he
      | succ i => cases he
    exact ⟨by decide +kernel, by decide +kernel, by decide +kernel, by decide +kernel⟩

/-- C61_streaming_partial is about real entries: the streaming reader accepts the entry of `one` and refuses that of
`coded`. -/
example : (∃ r s', streamNext ⟨true, 1⟩ ⟨Samples.one, 0, none, []⟩ = (.ok (some r), s')) ∧
    OccursAt Samples.one sigLocal 0 ∧ OccursAt Samples.coded sigLocal 0 ∧
    (∃ e, (streamNext ⟨true, 1⟩ ⟨Samples.coded, 0, none, []⟩).1 = .error (.err e)) := by
  have h1 : (match (streamNext ⟨true, 1⟩ ⟨Samples.one, 0, none, []⟩).1 with | .ok (some _) => true | _ => false) = true := by
    decide +kernel
  have h2 : (match (streamNext ⟨true, 1⟩ ⟨Samples.coded, 0, none, []⟩).1 with | .error (.err _) => true | _ => false) =
      true := by decide +kernel
  refine ⟨?_, by unfold OccursAt; decide +kernel, by unfold OccursAt; decide +kernel, ?_⟩
  · rcases hr : streamNext ⟨true, 1⟩ ⟨Samples.one, 0, none, []⟩ with ⟨_ | (_ | r), s'⟩
    · rw [hr] at h1; cases h1
    · rw [hr] at h1; cases h1
    · exact ⟨r, s', rfl⟩
  · rcases hr : (streamNext ⟨true, 1⟩ ⟨Samples.coded, 0, none, []⟩).1 with f | _
    · cases f with
      | err e => exact ⟨e, rfl⟩
      | _ => rw [hr] at h2; cases h2
    · rw [hr] at h2; cases h2

end AsyncZip
