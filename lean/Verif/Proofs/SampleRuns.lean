import Verif.Proofs.OpenRuns
import Verif.Proofs.SampleCodec
import Verif.Samples.ProgramRuns
import Verif.Spec.RoundTrip
/-!
# The sample program meets the hypotheses of the round-trip theorems
-/

namespace AsyncZip
open Spec

theorem runArchive_of {C : Codec} {zw zw' : ZipWriter} {ops : List Op} {rs : List OpResult} (h : runOps C zw ops = (rs, zw'))
    (evs : List Ev) : runArchive C zw ops evs = (rs, (closeArchive ⟨zw', evs⟩).1, (closeArchive ⟨zw', evs⟩).2.zw) := by
  unfold runArchive
  rw [h]

instance (data : List UInt8) (sig : List UInt8) (j : Nat) : Decidable (OccursAt data sig j) := by
  unfold OccursAt; infer_instance

instance (r : OpResult) : Decidable (TooMany r) := by
  cases r with
  | whole r => unfold TooMany; infer_instance
  | stream a b c => cases c <;> (unfold TooMany; infer_instance)
  | comment => unfold TooMany; infer_instance

/-- `Legible` for concrete archives. -/
theorem legible_of_decide {ops : List Op} {rs : List OpResult} {z : Bool} {bytes : Bytes}
    (own : ∀ op ∈ ops, ∀ f ∈ userFields op, OwnField f) (h : (archiveComment ops).length ≤ 65535 ∧
      OccursAt bytes sigEnd (endPosition bytes (archiveComment ops)) ∧
      (∀ j < bytes.length, OccursAt bytes sigEnd j → j ≤ endPosition bytes (archiveComment ops)) ∧
      (HasLocator bytes (endPosition bytes (archiveComment ops)) → z = true) ∧ (∀ r ∈ rs, ¬ TooMany r) ∧
      bytes.length < 2 ^ 64) : Legible ops rs z bytes where
  own := own
  comment := h.1
  last := lastEnd_of_decide ⟨h.2.1, h.2.2.1⟩
  locator := h.2.2.2.1
  count := h.2.2.2.2.1
  size := h.2.2.2.2.2

namespace Samples

theorem program_zip : (closeArchive ⟨programWriter, eager⟩).2.zw.isZip64 = true := by decide +kernel

theorem program_archive : (runArchive markCodec fresh program eager).1 = programResults ∧
    (runArchive markCodec fresh program eager).2.1 = .ok ⟨programBytes, 1, 0⟩ ∧
    (runArchive markCodec fresh program eager).2.2.isZip64 = true := by
  rw [runArchive_of program_runs]
  exact ⟨rfl, program_closes, program_zip⟩

theorem program_legible : Legible program (runArchive markCodec fresh program eager).1
    (runArchive markCodec fresh program eager).2.2.isZip64 programBytes := by
  rw [program_archive.1, program_archive.2.2]
  refine legible_of_decide ?_ (by decide +kernel)
  intro op ho
  simp only [program, List.mem_cons, List.not_mem_nil, or_false] at ho
  rcases ho with rfl | rfl | rfl | rfl | rfl <;> exact fun f hf => by cases hf

theorem acts_ok : AllOk [.ok 2, .ok 0, .ok 1] := by
  intro r hr
  simp only [List.mem_cons, List.not_mem_nil, or_false] at hr
  rcases hr with rfl | rfl | rfl <;> exact ⟨_, rfl⟩

end Samples
end AsyncZip
