import Verif.Proofs.Interrupts
import Verif.Props.Cut
import Verif.Props.Writing
import Verif.Props.Directory
/-!
# C92: archives that were not closed
-/

namespace AsyncZip
open Spec Wr Rd

/-- C92. If an archive can be closed at all, closing it with another schedule of the sink gives the same archive, or it fails and
the sink holds a proper beginning of that archive. -/
theorem C92_beginning (C : Codec) (zw : ZipWriter) (ops : List Op) (evs evs' : List Ev) (sink' : Sink)
    (hc : (runArchive C zw ops evs').2.1 = .ok sink') :
    (runArchive C zw ops evs).2.1 = .ok sink' ∨
    ((∃ e, (runArchive C zw ops evs).2.1 = .error e) ∧
      (runArchive C zw ops evs).2.2.writer.sink.bytes <+: sink'.bytes ∧
      (runArchive C zw ops evs).2.2.writer.sink.bytes ≠ sink'.bytes) := by
  obtain ⟨r, zw', _, h⟩ := Stops.closeArchive (runOps C zw ops).2
  have hc' : (closeArchive ⟨(runOps C zw ops).2, evs'⟩).1 = .ok sink' := hc
  have hs : zw'.writer.sink = sink' := by
    rcases h evs' with ⟨h1, h2⟩ | ⟨⟨e, h1⟩, _⟩
    · rcases hr : closeArchive ⟨(runOps C zw ops).2, evs'⟩ with ⟨x, s'⟩
      rw [hr] at hc' h2
      simp only at hc' h2
      subst hc'
      obtain ⟨_, _, _, _, _, _, h3, _⟩ := closeArchive_ok hr
      rw [← h2]
      exact h3
    · rw [hc'] at h1; cases h1
  have hr : r = .ok sink' := by
    rcases h evs' with ⟨h1, _⟩ | ⟨⟨e, h1⟩, _⟩
    · rw [← h1]; exact hc'
    · rw [hc'] at h1; cases h1
  rcases h evs with ⟨h1, _⟩ | ⟨h1, h2, h3⟩
  · exact Or.inl (h1.trans hr)
  · subst hs
    exact Or.inr ⟨h1, h2, h3⟩

/-- Closing adds at least the end record and the comment. -/
theorem closed_longer (C : Codec) (sink sink' : Sink) (zw : ZipWriter) (h : Created sink zw) (ops : List Op) (evs : List Ev)
    (hc : (runArchive C zw ops evs).2.1 = .ok sink') :
    (runOps C zw ops).2.writer.sink.bytes <+: sink'.bytes ∧
    (runOps C zw ops).2.writer.sink.bytes.length + 22 + (archiveComment ops).length ≤ sink'.bytes.length := by
  rcases hr : closeArchive ⟨(runOps C zw ops).2, evs⟩ with ⟨x, s'⟩
  have hc' : (closeArchive ⟨(runOps C zw ops).2, evs⟩).1 = .ok sink' := hc
  rw [hr] at hc'
  simp only at hc'
  subst hc'
  obtain ⟨cd, z, _, _, _, hb, _, _⟩ := closeArchive_ok hr
  rw [runOps_comment, (Created.facts h).2.2, commentBytes_eq] at hb
  refine ⟨⟨_, hb.symm⟩, ?_⟩
  rw [hb]
  unfold endBytes
  simp only [List.length_append, le32_length, eocdr_length]
  omega

/-- A beginning of a written archive that lacks more than (part of) the comment is refused. -/
theorem beginning_refused (C : Codec) (sink sink' : Sink) (zw : ZipWriter) (h : Created sink zw) (ops : List Op) (evs : List Ev)
    (hc : (runArchive C zw ops evs).2.1 = .ok sink')
    (hone : ∀ i, OccursAt sink'.bytes sigEnd i → i = endPosition sink'.bytes (archiveComment ops))
    (x : Bytes) (hx : x <+: sink'.bytes) (hl : x.length + (archiveComment ops).length < sink'.bytes.length)
    (B : Build) (s : RState) (hs : s.data = x) : Interrupted (openFile B s).1 ∨ CutError (openFile B s).1 := by
  have hlen := (closed_longer C sink sink' zw h ops evs hc).2
  rw [List.prefix_iff_eq_take] at hx
  refine C59_cut_partial B sink'.bytes _ x.length hone ?_ s (hs.trans hx)
  unfold endPosition
  omega

/-- C92 (partial). An archive whose closing failed, or was given up, does not open; nor by a panic or anything else than one of the
two errors for files that are cut short. Whatever the sink did. Here `sink'` is what the archive would have been, had the sink
taken it. Excluded: that it fails within the comment (`C92_comment_fails`), and archives with another end record in them
(`C59_nested_fails`). -/
theorem C92_unclosed_partial (C : Codec) (sink sink' : Sink) (zw : ZipWriter) (h : Created sink zw) (ops : List Op)
    (evs evs' : List Ev) (hc : (runArchive C zw ops evs').2.1 = .ok sink')
    (hone : ∀ i, OccursAt sink'.bytes sigEnd i → i = endPosition sink'.bytes (archiveComment ops))
    (e : Fail) (he : (runArchive C zw ops evs).2.1 = .error e)
    (hcom : archiveComment ops = [] ∨
      (runArchive C zw ops evs).2.2.writer.sink.bytes.length + (archiveComment ops).length < sink'.bytes.length)
    (B : Build) (s : RState) (hs : s.data = (runArchive C zw ops evs).2.2.writer.sink.bytes) :
    Interrupted (openFile B s).1 ∨ CutError (openFile B s).1 := by
  rcases C92_beginning C zw ops evs evs' sink' hc with hk | ⟨_, hp, hn⟩
  · rw [he] at hk; cases hk
  · refine beginning_refused C sink sink' zw h ops evs' hc hone _ hp ?_ B s hs
    rcases hcom with h0 | h0
    · rw [h0, List.length_nil, Nat.add_zero]
      exact Nat.lt_of_le_of_ne hp.length_le fun hq => hn (hp.eq_of_length hq)
    · exact h0

/-- C92 (partial). Nor does the file open at any time before: not after any number of calls, and not in between, when the sink holds
more than before the call and less than after it. -/
theorem C92_underway_partial (C : Codec) (sink sink' : Sink) (zw : ZipWriter) (h : Created sink zw) (ops : List Op) (evs : List Ev)
    (hc : (runArchive C zw ops evs).2.1 = .ok sink')
    (hone : ∀ i, OccursAt sink'.bytes sigEnd i → i = endPosition sink'.bytes (archiveComment ops))
    (k : Nat) (x : Bytes) (hx : x <+: (runOps C zw (ops.take k)).2.writer.sink.bytes)
    (B : Build) (s : RState) (hs : s.data = x) : Interrupted (openFile B s).1 ∨ CutError (openFile B s).1 := by
  obtain ⟨h1, h2⟩ := closed_longer C sink sink' zw h ops evs hc
  have h3 : (runOps C zw (ops.take k)).2.writer.sink.bytes <+: (runOps C zw ops).2.writer.sink.bytes := by
    have := runOps_append C (ops.take k) (ops.drop k) zw
    rw [List.take_append_drop] at this
    rw [this]
    exact (C33_append C _ _).1
  have h4 := hx.trans h3
  have h5 := h4.length_le
  exact beginning_refused C sink sink' zw h ops evs hc hone x (h4.trans h1) (by omega) B s hs

namespace Samples

/-- An entry and a comment. -/
def remarked : List Op := [.whole storedEntry [104, 105] false eager, .comment ⟨[99], by decide⟩]

/-- The archive without its comment. -/
def remarkedCut : Bytes :=
  [80, 75, 3, 4, 10, 0, 0, 8, 0, 0, 131, 24, 34, 80, 172, 42, 147, 216, 2, 0, 0, 0, 2, 0, 0, 0, 3, 0, 0, 0, 97, 46, 116,
   104, 105, 80, 75, 1, 2, 63, 3, 10, 0, 0, 8, 0, 0, 131, 24, 34, 80, 172, 42, 147, 216, 2, 0, 0, 0, 2, 0, 0, 0, 3, 0, 0,
   0, 0, 0, 0, 0, 0, 0, 0, 0, 0, 0, 0, 0, 0, 0, 97, 46, 116, 80, 75, 5, 6, 0, 0, 0, 0, 1, 0, 1, 0, 49, 0, 0, 0, 35, 0, 0,
   0, 1, 0]

/-- What it opens as. -/
def remarkedFile : ZipFile :=
  { entries := [cdEntryOf
      { vMadeBy := 831, vNeeded := 10, flags := { encrypted := false, dataDescriptor := false, filenameUnicode := true }
        compression := 0, modTime := 6275, modDate := 20514, crc := 3633523372, compressedSize := 2, uncompressedSize := 2
        fileNameLength := 3, extraFieldLength := 0, fileCommentLength := 0, diskStart := 0, interAttr := 0, exterAttr := 0
        lhOffset := 0 } [97, 46, 116] .stored [] []]
    zip64 := false
    comment := ⟨.utf8, [], none⟩ }

end Samples

/-- C92 does not hold for the comment: closing fails with the first byte of the comment, and the file opens nevertheless, without
the comment. -/
theorem C92_comment_fails : ∃ (ops : List Op) (evs : List Ev) (e : Fail),
    (runArchive Samples.markCodec Samples.fresh ops evs).2.1 = .error e ∧ archiveComment ops = [99] ∧
    ∀ (B : Build), 1 ≤ B.maxVecEntries → ∀ s : RState,
      s.data = (runArchive Samples.markCodec Samples.fresh ops evs).2.2.writer.sink.bytes →
      Interrupted (openFile B s).1 ∨ (openFile B s).1 = .ok Samples.remarkedFile := by
  refine ⟨Samples.remarked, List.replicate 5 (.accept 1000), .cancelled, by decide +kernel, by decide +kernel,
    fun B hb s hs => ?_⟩
  rw [show (runArchive Samples.markCodec Samples.fresh Samples.remarked (List.replicate 5 (.accept 1000))).2.2.writer.sink.bytes
    = Samples.remarkedCut by decide +kernel] at hs
  have he : OccursAt Samples.remarkedCut eocdrSig 84 ∧ ∀ j', OccursAt Samples.remarkedCut eocdrSig j' → j' ≤ 84 :=
    lastEnd_of_decide (by unfold OccursAt; decide +kernel)
  have hr : Runs (openFile B) Samples.remarkedCut s.pos (.ok Samples.remarkedFile) 84 := by
    refine Runs.openFile (re := .ok Samples.remarkedFile.entries) (comment := []) (eo := ⟨0, 0, 1, 1, 49, 35, 1⟩) he.1 he.2
      (by decide +kernel) (by decide +kernel) (by decide +kernel)
      (fun p => ⟨_, Runs.readCombined_plain (by decide) rfl (by decide +kernel) (by decide +kernel)⟩) rfl rfl
      (Runs.cd hb ?_)
    exact Runs.cdLoop_cons (Runs.cdRecord (rest := Samples.remarkedCut.drop 84) (xb := []) (by decide +kernel)
      rfl rfl rfl rfl (parseExtraLoop_short B 2 2 [] (by decide))) Runs.pure
  exact (hr.of_chunkIndep (openFile_chunkIndep B) s hs rfl).imp id fun h => h.1

/-- An entry and a comment, with a sink that takes the directory and stops in the middle of the end record. -/
example (B : Build) (s : RState) (hs : s.data = (runArchive Samples.markCodec Samples.fresh Samples.remarked
    [.accept 1000, .accept 1000, .accept 1000, .accept 1000, .accept 7]).2.2.writer.sink.bytes) :
    s.data.length = 95 ∧ (Interrupted (openFile B s).1 ∨ CutError (openFile B s).1) := by
  have hw : ∃ sink', (runArchive Samples.markCodec Samples.fresh Samples.remarked Samples.eager).2.1 = .ok sink' ∧
      sink'.bytes = (Samples.remarkedCut ++ [99] : Bytes) := ⟨⟨_, 0, 0⟩, by decide +kernel, rfl⟩
  obtain ⟨sink', h1, h2⟩ := hw
  refine ⟨by rw [hs]; decide +kernel, ?_⟩
  refine C92_unclosed_partial Samples.markCodec ⟨[], 0, 0⟩ sink' Samples.fresh .new Samples.remarked _ Samples.eager h1
    (fun i hi => ?_) .cancelled (by decide +kernel) (Or.inr ?_) B s hs
  · rw [h2] at hi ⊢
    have hb := occursAt_bound hi (by decide)
    have : ∀ i < (Samples.remarkedCut ++ [99] : Bytes).length, OccursAt (Samples.remarkedCut ++ [99]) sigEnd i →
        i = endPosition (Samples.remarkedCut ++ [99]) (archiveComment Samples.remarked) := by unfold OccursAt; decide +kernel
    exact this i (by rw [show sigEnd.length = 4 from rfl] at hb; omega) hi
  · rw [h2]; decide +kernel

/-- The sample program, given up before closing. -/
example (k : Nat) (B : Build) (s : RState)
    (hs : s.data = (runOps Samples.markCodec Samples.fresh (Samples.program.take k)).2.writer.sink.bytes) :
    Interrupted (openFile B s).1 ∨ CutError (openFile B s).1 := by
  refine C92_underway_partial Samples.markCodec ⟨[], 0, 0⟩ _ Samples.fresh .new Samples.program Samples.eager
    Samples.program_archive.2.1 (fun i hi => ?_) k _ (List.prefix_refl _) B s hs
  have hb := occursAt_bound hi (by decide)
  have : ∀ i < Samples.programBytes.length, OccursAt Samples.programBytes sigEnd i →
      i = endPosition Samples.programBytes (archiveComment Samples.program) := by unfold OccursAt; decide +kernel
  exact this i (by rw [show sigEnd.length = 4 from rfl] at hb; simp only at hb; omega) hi

end AsyncZip
