import Verif.Props.Directory
import Verif.Proofs.LastEnd
/-!
# C45: the archive comment
-/

namespace AsyncZip
open Spec Rd

theorem Program.length_le {C : Codec} {ops : List Op} {rs : List OpResult} {ls : List Listing} (h : Program C ops rs ls) :
    ls.length ≤ ops.length := by
  induction h with
  | nil => exact Nat.le_refl _
  | listed _ _ ih => exact Nat.succ_le_succ ih
  | other _ _ ih => exact Nat.le_succ_of_le ih

/-- The end record of a closed archive carries the comment. -/
theorem Finished.commentAt {C : Codec} {zw : ZipWriter} {ops : List Op} {evs : List Ev} {bytes out cd : Bytes} {J : Prop}
    {ps : List (Listing × CdEntry)} {offs : List Nat} {z : Bool} (fin : Finished C zw ops evs bytes J out ps offs cd z)
    (hcom : (archiveComment ops).length ≤ 65535) :
    endPosition bytes (archiveComment ops) = endAt out cd z ∧
      window bytes (endAt out cd z + 22) (fieldAt bytes (endAt out cd z + 20) 2) = archiveComment ops := by
  have hb := fin.bytes
  rw [commentBytes_eq] at hb
  have hl := archive_length out cd z ps.length (archiveComment ops)
  have he := end_at out cd z ps.length (archiveComment ops) hcom
  rw [← hb] at hl he
  refine ⟨by unfold endPosition; omega, ?_⟩
  unfold window
  rw [he.comment.1, he.comment.2, List.take_length]

/-- C45. Whenever a closed archive is opened successfully - by any reader, over any schedule of reads - its comment is the
one the program set last. Partial: the comment must fit the 16-bit length and the end record must be the last thing in the
archive that looks like one; see `C45_long_fails` and `C45_embedded_fails`, and `C45_small_partial` for when it is. -/
theorem C45_comment_partial (C : Codec) (sink sink' : Sink) (zw : ZipWriter) (h : Created sink zw) (hs : sink.bytes = [])
    (ops : List Op) (evs : List Ev) (hc : (runArchive C zw ops evs).2.1 = .ok sink')
    (hcom : (archiveComment ops).length ≤ 65535)
    (hlast : LastEnd sink'.bytes (endPosition sink'.bytes (archiveComment ops)))
    (b : Build) (s s' : RState) (f : ZipFile) (hd : s.data = sink'.bytes) (ho : openFile b s = (.ok f, s')) :
    f.comment = ⟨.utf8, archiveComment ops, none⟩ := by
  obtain ⟨out, ps, offs, cd, z, fin⟩ := finished h hs hc (J := True) (Or.inl trivial)
  obtain ⟨h1, h2⟩ := fin.commentAt hcom
  obtain ⟨j, hj, _, hf⟩ := openFile_comment ho
  rw [hd] at hj hf
  have : j = endAt out cd z := by
    rw [h1] at hlast
    exact Nat.le_antisymm (hlast.2 j hj.1) (hj.2 _ hlast.1)
  rw [hf, this, h2]
  unfold ZipString.new
  simp only
  rw [if_pos (archiveComment_valid ops)]

/-- In a small archive with a harmless comment the end record is the last thing that looks like one. -/
theorem small_last {C : Codec} {sink sink' : Sink} {zw : ZipWriter} (h : Created sink zw) (hs : sink.bytes = [])
    {ops : List Op} {evs : List Ev} (hc : (runArchive C zw ops evs).2.1 = .ok sink')
    (hn : ops.length < 0x500) (hsize : sink'.bytes.length < 0x5000000)
    (hcom : (archiveComment ops).length < 0x4B00) (hsig : ∀ i, ¬ OccursAt (archiveComment ops) sigEnd i) :
    LastEnd sink'.bytes (endPosition sink'.bytes (archiveComment ops)) := by
  obtain ⟨out, ps, offs, cd, z, fin⟩ := finished h hs hc (J := True) (Or.inl trivial)
  obtain ⟨h1, _⟩ := fin.commentAt (by omega)
  rw [h1]
  have hb := fin.bytes
  rw [commentBytes_eq] at hb
  have hl := archive_length out cd z ps.length (archiveComment ops)
  have hp := Program.length_le fin.program
  rw [List.length_map] at hp
  rw [← hb] at hl
  unfold endAt at hl
  rw [hb]
  exact last_end out cd z _ _ (by omega) (by omega) (by omega) hcom hsig

/-- C45 for archives of fewer than 1280 calls and 80 MiB, with a comment of less than 19200 bytes that does not contain the
end signature: the comment is read back. -/
theorem C45_small_partial (C : Codec) (sink sink' : Sink) (zw : ZipWriter) (h : Created sink zw) (hs : sink.bytes = [])
    (ops : List Op) (evs : List Ev) (hc : (runArchive C zw ops evs).2.1 = .ok sink')
    (hn : ops.length < 0x500) (hsize : sink'.bytes.length < 0x5000000)
    (hcom : (archiveComment ops).length < 0x4B00) (hsig : ∀ i, ¬ OccursAt (archiveComment ops) sigEnd i)
    (b : Build) (s s' : RState) (f : ZipFile) (hd : s.data = sink'.bytes) (ho : openFile b s = (.ok f, s')) :
    f.comment = ⟨.utf8, archiveComment ops, none⟩ :=
  C45_comment_partial C sink sink' zw h hs ops evs hc (by omega) (small_last h hs hc hn hsize hcom hsig) b s s' f hd ho

/-- The sample program's comment is read back. -/
example (b : Build) (s s' : RState) (f : ZipFile) (hd : s.data = Samples.programBytes)
    (ho : openFile b s = (.ok f, s')) : f.comment = ⟨.utf8, [99], none⟩ :=
  C45_small_partial Samples.markCodec ⟨[], 0, 0⟩ ⟨Samples.programBytes, 1, 0⟩ Samples.fresh .new rfl Samples.program Samples.eager
    Samples.program_archive.2.1 (by decide) (by decide +kernel) (by decide) (fun i hi => by
      have hl := congrArg List.length hi
      simp only [archiveComment, Samples.program, finalComment, sigEnd, List.length_take, List.length_drop, List.length_cons,
        List.length_nil] at hl
      omega) b s s' f hd ho

/-- C45 as written does not hold for comments of more than 65535 bytes: the archive is written, and no reader ever shows
that comment. -/
theorem C45_long_fails (C : Codec) (c : RString) (hl : 65535 < c.bytes.length) :
    ∃ evs sink', (runArchive C Samples.fresh [.comment c] evs).2.1 = .ok sink' ∧
      ∀ b s s' f, s.data = sink'.bytes → openFile b s = (.ok f, s') → f.comment.basic ≠ c.bytes := by
  obtain ⟨n, sink', hc⟩ := close_succeeds C ⟨[], 0, 0⟩ Samples.fresh .new [.comment c] (by
    intro ⟨_, h⟩
    cases h) 0
  refine ⟨_, sink', hc, fun b s s' f _ ho he => ?_⟩
  obtain ⟨j, _, _, hf⟩ := openFile_comment ho
  have hr : f.comment.basic = window s.data (j + 22) (fieldAt s.data (j + 20) 2) := by
    rw [hf]
    unfold ZipString.new
    simp only
    split <;> rfl
  rw [← he, hr] at hl
  have h1 : (window s.data (j + 22) (fieldAt s.data (j + 20) 2)).length ≤ fieldAt s.data (j + 20) 2 := by
    unfold window
    rw [List.length_take]
    exact Nat.min_le_left _ _
  have h2 := fieldAt_lt s.data (j + 20) 2
  omega

/-- A comment that is itself an empty archive. -/
def embedded : RString := ⟨[80, 75, 5, 6, 0, 0, 0, 0, 0, 0, 0, 0, 0, 0, 0, 0, 0, 0, 0, 0, 0, 0], by decide⟩

/-- The archive with that comment and nothing else. -/
def embeddedBytes : Bytes :=
  [80, 75, 5, 6, 0, 0, 0, 0, 0, 0, 0, 0, 0, 0, 0, 0, 0, 0, 0, 0, 22, 0,
   80, 75, 5, 6, 0, 0, 0, 0, 0, 0, 0, 0, 0, 0, 0, 0, 0, 0, 0, 0, 0, 0]

/-- C45 as written does not hold for comments that contain the end signature: the archive opens, with another comment. -/
theorem C45_embedded_fails (C : Codec) (b : Build) : ∃ sink' f,
    (runArchive C Samples.fresh [.comment embedded] Samples.eager).2.1 = .ok sink' ∧
    (∀ s : RState, s.data = sink'.bytes → Interrupted (openFile b s).1 ∨ (openFile b s).1 = .ok f) ∧
    f.comment = ⟨.utf8, [], none⟩ := by
  refine ⟨⟨embeddedBytes, 0, 0⟩, ⟨[], false, ⟨.utf8, [], none⟩⟩, by rfl, fun s hs => ?_, rfl⟩
  have hr : Runs (openFile b) embeddedBytes s.pos (.ok ⟨[], false, ZipString.new [] .utf8⟩) 0 := by
    have hl : LastEnd embeddedBytes 22 := lastEnd_of_decide (by decide +kernel)
    refine Runs.openFile (re := .ok []) (comment := []) (eo := ⟨0, 0, 0, 0, 0, 0, 0⟩) hl.1 hl.2 (by decide +kernel)
      (by decide +kernel) (by decide +kernel)
      (fun p => ⟨_, Runs.readCombined_plain (by decide) rfl (by decide +kernel) (by decide +kernel)⟩) rfl rfl
      (Runs.cd (Nat.zero_le _) Runs.pure)
  exact (hr.of_chunkIndep (openFile_chunkIndep b) s hs rfl).imp id fun h => h.1

end AsyncZip
