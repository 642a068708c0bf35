import Verif.Proofs.Refused
import Verif.Props.Openable
/-!
# C77: exactly what is reported about a file that cannot be opened, an entry that cannot be got at, and a header that
cannot be read from a stream
-/

namespace AsyncZip
open Spec Rd

/-- C77. Unless the source fails or the future is dropped: a file opens exactly if it is as `Openable` says, and otherwise
`e` is reported exactly if the first thing wrong with the bytes is the one `e` stands for. -/
theorem C77_open_outcome (b : Build) (s : RState) (hlen : s.data.length < 2 ^ 64)
    (hfit : b.overflowChecks = false → ∀ j, LastEnd s.data j → HasLocator s.data j → zip64End s.data j + 4 < 2 ^ 64) :
    Interrupted (openFile b s).1 ∨
      (((∃ f, (openFile b s).1 = .ok f) ↔ ∃ j, Openable b.maxVecEntries s.data j) ∧
       ∀ e, (openFile b s).1 = .error e ↔ Refused b.overflowChecks b.maxVecEntries s.data e) := by
  by_cases hi : Interrupted (openFile b s).1
  · exact Or.inl hi
  have hok : (∃ j, Openable b.maxVecEntries s.data j) → ∃ f, (openFile b s).1 = .ok f := by
    rintro ⟨j, hj⟩
    have hz : HasLocator s.data j → zip64End s.data j + 4 < 2 ^ 64 := by
      intro h
      have := hj.zip64 h
      clear hfit
      generalize zip64End s.data j = z at this
      omega
    obtain ⟨f, pos', hr⟩ := Openable.runs hj hz s.pos
    rcases hr.of_chunkIndep (openFile_chunkIndep b) s rfl rfl with h | h
    · exact absurd h hi
    · exact ⟨f, h.1⟩
  have herr : ∀ e, Refused b.overflowChecks b.maxVecEntries s.data e → (openFile b s).1 = .error e := fun e h =>
    (Ends.of_chunkIndep (openFile_chunkIndep b) (Refused.ends h hlen s.pos)).resolve_left hi
  refine Or.inr ⟨⟨?_, hok⟩, fun e => ⟨?_, herr e⟩⟩
  · rintro ⟨f, hf⟩
    rcases file_total b.overflowChecks b.maxVecEntries s.data hfit with h | ⟨e, h⟩
    · exact h
    · have := herr e h
      rw [hf] at this
      cases this
  · intro he
    rcases file_total b.overflowChecks b.maxVecEntries s.data hfit with h | ⟨e', h⟩
    · obtain ⟨f, hf⟩ := hok h
      rw [hf] at he
      cases he
    · have := herr e' h
      rw [he] at this
      cases this
      exact h

/-- What is wrong with four files: nothing there at all; an extra field block that claims more than there is (reported
differently by the two builds); a count that cannot be allocated; and a real archive without its last byte. -/
theorem refused_samples (checks : Bool) (most : Nat) (hm : 1 ≤ most) (hm' : most < 2 ^ 64 - 1) :
    Refused checks most [] (.err .unableToLocateEOCDR) ∧
    Refused checks most Samples.overlong
      (if checks then .panic else .err (.invalidExtraFieldHeader 200 (2 ^ 64 + 6 - 8 - 200))) ∧
    Refused checks most Samples.huge .panic ∧
    Refused checks most (Samples.one.take 120) endOfFile := by
  refine ⟨.noEnd fun j hj => ?_, ?_, ?_, ?_⟩
  · have := congrArg List.length hj
    simp [sigEnd] at this
  · refine .record 102 Samples.overlong_end (by decide +kernel) (by decide +kernel) (fun h => absurd h (by decide +kernel))
      (by decide +kernel) (by decide +kernel) ?_ _ ?_
    · rw [show declaredEntries Samples.overlong 102 = 1 by decide +kernel]
      exact hm
    rw [show declaredOffset Samples.overlong 102 = 43 by decide +kernel,
      show declaredEntries Samples.overlong 102 = 1 by decide +kernel]
    refine .here _ _ _ (.extra (by decide +kernel) (by decide +kernel) ⟨.stored, by decide +kernel⟩ _ ?_)
    rw [show window Samples.overlong _ _ = [153, 119, 200, 0, 1, 2] by decide +kernel]
    cases checks with
    | true => exact .overlongPanic _ (by unfold Overlong; decide) rfl
    | false => exact .overlong _ (by unfold Overlong; decide) rfl 200 _ (by decide) (by decide)
  · refine .tooMany 76 Samples.huge_end (by decide +kernel) (by decide +kernel) (fun _ => by decide +kernel)
      (by decide +kernel) (by decide +kernel) ?_
    rw [show declaredEntries Samples.huge 76 = 2 ^ 64 - 1 by decide +kernel]
    exact hm'
  · exact .endCut 102 (lastEnd_of_decide (by unfold OccursAt; decide +kernel)) (by decide +kernel) (by decide +kernel)

/-- So that is what is reported about them under every schedule that does not interrupt. -/
example (b : Build) (hb : 1 ≤ b.maxVecEntries) (hb' : b.maxVecEntries < 2 ^ 64 - 1) (sched : Option (List RdResp)) :
    (Interrupted (openFile b ⟨Samples.overlong, 0, sched, []⟩).1 ∨ (openFile b ⟨Samples.overlong, 0, sched, []⟩).1 =
      .error (if b.overflowChecks then .panic else .err (.invalidExtraFieldHeader 200 (2 ^ 64 + 6 - 8 - 200)))) ∧
    (Interrupted (openFile b ⟨Samples.one.take 120, 0, sched, []⟩).1 ∨
      (openFile b ⟨Samples.one.take 120, 0, sched, []⟩).1 = .error endOfFile) := by
  constructor
  · refine (C77_open_outcome b ⟨Samples.overlong, 0, sched, []⟩
      (show Samples.overlong.length < 2 ^ 64 by decide +kernel) ?_).imp_right fun h =>
      (h.2 _).2 (refused_samples _ _ hb hb').2.1
    intro _ j hj hl
    have : j = 102 := Nat.le_antisymm (Samples.overlong_end.2 j hj.1) (hj.2 102 Samples.overlong_end.1)
    subst this
    exact absurd (show HasLocator Samples.overlong 102 from hl) (by decide +kernel)
  · have hend : LastEnd (Samples.one.take 120) 102 := lastEnd_of_decide (by unfold OccursAt; decide +kernel)
    refine (C77_open_outcome b ⟨Samples.one.take 120, 0, sched, []⟩
      (show (Samples.one.take 120).length < 2 ^ 64 by decide +kernel) ?_).imp_right fun h =>
      (h.2 _).2 (refused_samples _ _ hb hb').2.2.2
    intro _ j hj hl
    have : j = 102 := Nat.le_antisymm (hend.2 j hj.1) (hj.2 102 hend.1)
    subst this
    exact absurd (show HasLocator (Samples.one.take 120) 102 from hl) (by decide +kernel)

/-- C77. What is reported when the entry at an index cannot be got at. -/
theorem C77_entry_outcome (f : ZipFile) (i : Nat) (s : RState) :
    Interrupted (readerWithEntry f i s).1 ∨ ∀ x, (readerWithEntry f i s).1 = .error x ↔
      (f.entries[i]? = none ∧ x = .err .entryIndexOutOfBounds) ∨
      ∃ e, f.entries[i]? = some e ∧ BadEntry s.data e.fileOffset x := by
  by_cases hi : Interrupted (readerWithEntry f i s).1
  · exact Or.inl hi
  refine Or.inr fun x => ?_
  cases he : f.entries[i]? with
  | none =>
    simp only [readerWithEntry, he, throwErr_def, true_and, reduceCtorEq, false_and, exists_false, or_false]
    exact ⟨fun h => by cases h; rfl, fun h => by rw [h]⟩
  | some e =>
    simp only [reduceCtorEq, false_and, false_or, Option.some.injEq, exists_eq_left']
    have hdef : readerWithEntry f i = (do
        seekToDataOffset e
        pure (EntryReader.new e.entry.compression e.entry.compressedSize.toNat, e.entry)) := by
      simp only [readerWithEntry, he]
    have herr : ∀ y, BadEntry s.data e.fileOffset y → (readerWithEntry f i s).1 = .error y := by
      intro y hy
      rw [hdef] at hi ⊢
      exact (Ends.of_chunkIndep (ChunkIndep.bind (seekToDataOffset_chunkIndep e) fun _ => ChunkIndep.pure _)
        (Ends.bind_error (BadEntry.ends hy s.pos))).resolve_left hi
    refine ⟨fun h => ?_, herr x⟩
    rcases entry_total s.data e.fileOffset with hg | ⟨y, hy⟩
    · obtain ⟨r, hr⟩ := ((C74_entry_iff f i s).resolve_left hi).2 ⟨e, he, hg⟩
      rw [hr] at h
      cases h
    · have := herr y hy
      rw [h] at this
      cases this
      exact hy

/-- The entry of `Samples.one` when the file has been overwritten by another that begins differently. -/
example (sched : Option (List RdResp)) :
    Interrupted (readerWithEntry Samples.oneFile 0 ⟨Samples.huge, 0, sched, []⟩).1 ∨
      (readerWithEntry Samples.oneFile 0 ⟨Samples.huge, 0, sched, []⟩).1 =
        .error (.err (.unexpectedHeaderError 0x06064b50 0x04034b50)) :=
  (C77_entry_outcome Samples.oneFile 0 ⟨Samples.huge, 0, sched, []⟩).imp_right fun h =>
    (h _).2 (Or.inr ⟨Samples.oneFile.entries[0], rfl, .signature (show 0 + 4 ≤ Samples.huge.length by decide +kernel)
      (show ¬ OccursAt Samples.huge sigLocal 0 by decide +kernel) _
      (show _ = fieldAt Samples.huge 0 4 by decide +kernel)⟩)

/-- C77. What `next` reports when it returns neither an entry nor the end. -/
theorem C77_next_outcome (b : Build) (s : RState) :
    Interrupted (streamNext b s).1 ∨ ∀ e, (streamNext b s).1 = .error e ↔ BadHeader b.overflowChecks s.data s.pos e := by
  by_cases hi : Interrupted (streamNext b s).1
  · exact Or.inl hi
  have herr : ∀ e, BadHeader b.overflowChecks s.data s.pos e → (streamNext b s).1 = .error e := fun e h =>
    (Ends.of_chunkIndep (streamNext_chunkIndep b) (BadHeader.ends h)).resolve_left hi
  refine Or.inr fun e => ⟨fun h => ?_, herr e⟩
  obtain ⟨g1, g2⟩ := (C75_next_iff b s).resolve_left hi
  rcases header_total b.overflowChecks s.data s.pos with hg | hc | ⟨y, hy⟩
  · obtain ⟨r, hr⟩ := g1.2 hg
    rw [hr] at h
    cases h
  · rw [g2.2 hc] at h
    cases h
  · have := herr y hy
    rw [h] at this
    cases this
    exact hy

/-- A stored entry with a data descriptor, an encrypted one, and what follows the directory, under every schedule. -/
example (b : Build) (sched : Option (List RdResp)) :
    (Interrupted (streamNext b ⟨Samples.flagged 8, 0, sched, []⟩).1 ∨
      (streamNext b ⟨Samples.flagged 8, 0, sched, []⟩).1 = .error (.err (.featureNotSupported "encryption"))) ∧
    (Interrupted (streamNext b ⟨Samples.flagged 0, 0, sched, []⟩).1 ∨
      (streamNext b ⟨Samples.flagged 0, 0, sched, []⟩).1 = .error (.err (.featureNotSupported
        "stream reading entries with data descriptors & Stored compression mode"))) ∧
    (Interrupted (streamNext b ⟨Samples.one, 102, sched, []⟩).1 ∨
      (streamNext b ⟨Samples.one, 102, sched, []⟩).1 = .error (.err (.unexpectedHeaderError 0x06054b50 0x04034b50))) := by
  refine ⟨(C77_next_outcome b ⟨Samples.flagged 8, 0, sched, []⟩).imp_right fun h => (h _).2 ?_,
    (C77_next_outcome b ⟨Samples.flagged 0, 0, sched, []⟩).imp_right fun h => (h _).2 ?_,
    (C77_next_outcome b ⟨Samples.one, 102, sched, []⟩).imp_right fun h => (h _).2 ?_⟩
  · show BadHeader _ (Samples.flagged 8) 0 _
    refine .encrypted (by decide +kernel) (by decide +kernel) ⟨.deflate, by decide +kernel⟩ ?_ (by decide +kernel)
      (by decide +kernel)
    rw [show window (Samples.flagged 8) _ _ = [] by decide +kernel]
    exact ⟨[], [], .nil _, by decide, by simp⟩
  · show BadHeader _ (Samples.flagged 0) 0 _
    refine .descriptor (by decide +kernel) (by decide +kernel) ?_ (by decide +kernel) (by decide +kernel)
    rw [show window (Samples.flagged 0) _ _ = [] by decide +kernel]
    exact ⟨[], [], .nil _, by decide, by simp⟩
  · show BadHeader _ Samples.one 102 _
    exact .signature (by decide +kernel) (by decide +kernel) (by decide +kernel) _ (by decide +kernel)

end AsyncZip
