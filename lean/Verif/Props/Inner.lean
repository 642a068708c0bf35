import Verif.Proofs.Inner
import Verif.Props.Fields
import Verif.Props.Behind
/-!
# C93: using the sink of an open writer
-/

namespace AsyncZip
open Spec Rd

/-- C93. No call notices what a program does to the sink through `inner_mut`: all calls give the results that they give without it,
and so does closing; and if closing succeeds, the sink holds the same archive as without it, with what was written past the writer
inserted at the place where the archive was by then. -/
theorem C93_inserted (C : Codec) (zw : ZipWriter) (steps : List MixedStep) (evs : List Ev) :
    (runStepsArchive C zw steps evs).1 = (runArchive C zw (calls steps) evs).1 ∧
    (∀ x, (runStepsArchive C zw steps evs).2.1 = .error x ↔ (runArchive C zw (calls steps) evs).2.1 = .error x) ∧
    ∀ k k', (runStepsArchive C zw steps evs).2.1 = .ok k → (runArchive C zw (calls steps) evs).2.1 = .ok k' →
      k.bytes = zw.writer.sink.bytes ++ spread k'.bytes zw.writer.sink.bytes.length (asides C zw steps) := by
  obtain ⟨d, c1, _, c2, c3, c4⟩ := close_bare (runOps C zw (calls steps)).2 (runSteps C zw steps).2
    (runSteps_spread C _ steps zw zw rfl (List.prefix_refl _)).2.1 evs
  refine ⟨(runSteps_spread C _ steps zw zw rfl (List.prefix_refl _)).1, fun x => (c2 x).symm, fun k k' hk hk' => ?_⟩
  have hb' : k'.bytes = _ := c3 k' hk'
  have hb : k.bytes = _ := c4 k hk
  obtain ⟨_, _, _, h4⟩ := runSteps_spread C k'.bytes steps zw zw rfl (hb' ▸ List.prefix_append _ d)
  rw [← h4, hb, hb', List.drop_left]

/-- C93. In particular, a program may flush the sink of an open writer as often as it likes: the archive is the same. -/
theorem C93_flush (C : Codec) (zw : ZipWriter) (steps : List MixedStep) (evs : List Ev)
    (hs : ∀ k, MixedStep.sink k ∈ steps → k.bytes = []) (k k' : Sink)
    (hk : (runStepsArchive C zw steps evs).2.1 = .ok k) (hk' : (runArchive C zw (calls steps) evs).2.1 = .ok k') :
    k.bytes = k'.bytes := by
  have h := (C93_inserted C zw steps evs).2.2 k k' hk hk'
  rw [h]
  have ha : ∀ (steps : List MixedStep) (zw : ZipWriter) (a : Nat), (∀ k, MixedStep.sink k ∈ steps → k.bytes = []) →
      a ≤ zw.writer.sink.bytes.length → spread k'.bytes a (asides C zw steps) = k'.bytes.drop a := by
    intro steps
    induction steps with
    | nil => intro zw a _ _; rfl
    | cons st steps ih =>
      intro zw a hs hl
      cases st with
      | call op =>
        obtain ⟨_, _, d, hd, _⟩ := runOp_bare C zw zw rfl op
        exact ih _ a (fun k hm => hs k (List.mem_cons_of_mem _ hm)) (by rw [hd, List.length_append]; omega)
      | sink y =>
        show (k'.bytes.drop a).take (_ - a) ++ y.bytes ++ spread k'.bytes _ _ = _
        rw [ih zw _ (fun k hm => hs k (List.mem_cons_of_mem _ hm)) (Nat.le_refl _), hs y List.mem_cons_self, List.append_nil]
        conv => rhs; rw [← List.take_append_drop (zw.writer.sink.bytes.length - a) (k'.bytes.drop a), List.drop_drop]
        congr 2
        omega
  rw [ha steps zw _ hs (Nat.le_refl _)]
  obtain ⟨d, _, _, _, c3, _⟩ := close_bare (runOps C zw (calls steps)).2 (runOps C zw (calls steps)).2 rfl evs
  have hb' : k'.bytes = _ := c3 k' hk'
  have h3 := (runSteps_spread C _ steps zw zw rfl (List.prefix_refl _)).2.2.1
  obtain ⟨t, ht⟩ := h3
  rw [hb', ← ht, List.append_assoc, List.drop_left]

namespace Samples

/-- An entry, then a byte past the writer. -/
def aside : List MixedStep := [.call (.whole fieldedEntry [104, 105] false eager), .sink ⟨[35], 1, 0⟩]

end Samples

/-- C93 on data: an entry, then a byte past the writer. -/
example : (runStepsArchive Samples.markCodec Samples.fresh Samples.aside Samples.eager).2.1 =
    .ok ⟨Samples.fieldedBytes.take 45 ++ [35] ++ Samples.fieldedBytes.drop 45, 1, 0⟩ := by decide +kernel

/-- C93 on data: an entry, then a flush. -/
example : ∃ k, (runStepsArchive Samples.markCodec Samples.fresh
      [.call (.whole Samples.fieldedEntry [104, 105] false Samples.eager), .sink ⟨[], 1, 0⟩] Samples.eager).2.1 = .ok k ∧
    k.bytes = Samples.fieldedBytes ∧ k.flushes = 1 := by
  refine ⟨⟨_, 1, 0⟩, by decide +kernel, rfl, rfl⟩

/-- C93. What is written past the writer ruins the archive, although every call and closing succeed: with one byte between the entry
and the directory, nobody opens this one. -/
theorem C93_ruined (b : Build) (hb : 1 ≤ b.maxVecEntries) : ∃ sink',
    (runStepsArchive Samples.markCodec Samples.fresh Samples.aside Samples.eager).2.1 = .ok sink' ∧
    ∀ s : RState, s.data = sink'.bytes → Interrupted (openFile b s).1 ∨
      ∃ found, (openFile b s).1 = .error (.err (.unexpectedHeaderError found CDH_SIGNATURE)) := by
  refine ⟨⟨Samples.fieldedBytes.take 45 ++ [35] ++ Samples.fieldedBytes.drop 45, 1, 0⟩, by decide +kernel, fun s hs => ?_⟩
  have hl : LastEnd (Samples.fieldedBytes.take 45 ++ [35] ++ Samples.fieldedBytes.drop 45) 105 :=
    lastEnd_of_decide (by decide +kernel)
  have hr : Runs (openFile b) (Samples.fieldedBytes.take 45 ++ [35] ++ Samples.fieldedBytes.drop 45) s.pos
      (.error (.err (.unexpectedHeaderError 0x014B5023 CDH_SIGNATURE))) 49 :=
    Runs.openFile (comment := []) (eo := ⟨0, 0, 1, 1, 59, 45, 0⟩) (re := .error _) hl.1 hl.2 (by decide +kernel)
      (by decide +kernel) (by decide +kernel)
      (fun p => ⟨_, Runs.readCombined_plain
        (x := ((Samples.fieldedBytes.take 45 ++ [35] ++ Samples.fieldedBytes.drop 45).drop 85).take 4) (by decide)
        (by decide +kernel) (by decide +kernel) (by decide +kernel)⟩) (by decide +kernel) (by decide +kernel)
      (Runs.cd hb (Runs.cdLoop_error (Runs.bind_error (Runs.bind (Runs.readExact (b := [35, 80, 75, 1]) (by decide +kernel) rfl)
        (Runs.ite_neg (by decide +kernel) Runs.fail)))))
  exact (hr.of_chunkIndep (openFile_chunkIndep b) s hs rfl).imp id fun h => ⟨_, h.1⟩

end AsyncZip
