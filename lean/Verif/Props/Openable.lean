import Verif.Proofs.Openable
import Verif.Proofs.Samples
import Verif.Props.Opening
import Verif.Props.Streaming
/-!
# C74, C75: exactly which files open, and exactly which headers are read from a stream
-/

namespace AsyncZip
open Spec Rd

/-! ## C74 -/

/-- C74. A file opens if and only if its bytes are as `Openable` says; however the source answers, unless it fails or the
future is dropped. -/
theorem C74_opens_iff (b : Build) (s : RState)
    (hfit : ∀ j, LastEnd s.data j → HasLocator s.data j → zip64End s.data j + 4 < 2 ^ 64) :
    Interrupted (openFile b s).1 ∨
      ((∃ f, (openFile b s).1 = .ok f) ↔ ∃ j, Openable b.maxVecEntries s.data j) := by
  by_cases hi : Interrupted (openFile b s).1
  · exact Or.inl hi
  refine Or.inr ⟨?_, ?_⟩
  · rintro ⟨f, hf⟩
    have hf' : openFile b s = (.ok f, (openFile b s).2) := by rw [← hf]
    exact Openable.of_ok hf' hfit
  · rintro ⟨j, hj⟩
    obtain ⟨f, pos', hr⟩ := Openable.runs hj (hfit j hj.last) s.pos
    rcases hr.of_chunkIndep (openFile_chunkIndep b) s rfl rfl with h | h
    · exact absurd h hi
    · exact ⟨f, h.1⟩

/-- The extra field of the entry of `Samples.one` and of `Samples.truncated` is good. -/
theorem one_extra_good : GoodExtra [153, 119, 2, 0, 1, 2] :=
  ⟨_, [], .cons _ [] [] (by decide +kernel) (.nil _), by decide +kernel, by
    intro block hb
    simp only [List.mem_singleton] at hb
    subst hb
    intro h
    exact absurd h (by decide +kernel)⟩

/-- A real archive is openable; a variant whose entry comment is cut short by the end of the file is, too. -/
theorem one_openable : Openable 1 Samples.one 102 ∧ Openable 1 Samples.truncated 102 := by
  constructor
  · refine ⟨Samples.one_end, by decide +kernel, by decide +kernel, fun h => absurd h (by decide +kernel), by decide +kernel,
      by decide +kernel, by decide +kernel, ?_⟩
    rw [show declaredOffset Samples.one 102 = 43 by decide +kernel, show declaredEntries Samples.one 102 = 1 by decide +kernel]
    refine .cons _ _ ⟨by decide +kernel, by decide +kernel, ⟨.stored, by decide +kernel⟩, ?_⟩ (.nil _)
    rw [show window Samples.one _ _ = [153, 119, 2, 0, 1, 2] by decide +kernel]
    exact one_extra_good
  · refine ⟨Samples.truncated_end, by decide +kernel, by decide +kernel, fun h => absurd h (by decide +kernel), by decide +kernel,
      by decide +kernel, by decide +kernel, ?_⟩
    rw [show declaredOffset Samples.truncated 102 = 43 by decide +kernel,
      show declaredEntries Samples.truncated 102 = 1 by decide +kernel]
    refine .cons _ _ ⟨by decide +kernel, by decide +kernel, ⟨.stored, by decide +kernel⟩, ?_⟩ (.nil _)
    rw [show window Samples.truncated _ _ = [153, 119, 2, 0, 1, 2] by decide +kernel]
    exact one_extra_good

/-- A variant whose extra field block claims more than there is is not openable, whatever the allowed number of entries. -/
theorem overlong_not_openable (most : Nat) : ¬ ∃ j, Openable most Samples.overlong j := by
  rintro ⟨j, h⟩
  have : j = 102 := Nat.le_antisymm (Samples.overlong_end.2 j h.last.1) (h.last.2 102 Samples.overlong_end.1)
  subst this
  have hr := h.records
  rw [show declaredOffset Samples.overlong 102 = 43 by decide +kernel,
    show declaredEntries Samples.overlong 102 = 1 by decide +kernel] at hr
  cases hr with
  | cons _ _ hg _ =>
    have hx := hg.extra
    rw [show window Samples.overlong _ _ = [153, 119, 200, 0, 1, 2] by decide +kernel] at hx
    obtain ⟨blocks, tail, hb, hl, _⟩ := hx
    cases hb with
    | nil => exact absurd hl (by decide +kernel)
    | cons _ _ _ hlen _ => exact absurd hlen (by decide +kernel)

/-- So the first two open under every schedule that does not interrupt, and the third does not, on every build. -/
example (b : Build) (hb : 1 ≤ b.maxVecEntries) (sched : Option (List RdResp)) :
    (Interrupted (openFile b ⟨Samples.one, 0, sched, []⟩).1 ∨ ∃ f, (openFile b ⟨Samples.one, 0, sched, []⟩).1 = .ok f) ∧
    ¬ ∃ f, (openFile b ⟨Samples.overlong, 0, sched, []⟩).1 = .ok f := by
  have hmost : Openable b.maxVecEntries Samples.one 102 := { one_openable.1 with count := Nat.le_trans one_openable.1.count hb }
  constructor
  · refine (C74_opens_iff b ⟨Samples.one, 0, sched, []⟩ ?_).imp_right fun h => h.2 ⟨102, hmost⟩
    intro j hj hl
    have : j = 102 := Nat.le_antisymm (Samples.one_end.2 j hj.1) (hj.2 102 Samples.one_end.1)
    subst this
    exact absurd (show HasLocator Samples.one 102 from hl) (by decide +kernel)
  · rintro ⟨f, hf⟩
    have hfit : ∀ j, LastEnd Samples.overlong j → HasLocator Samples.overlong j →
        zip64End Samples.overlong j + 4 < 2 ^ 64 := by
      intro j hj hl
      have : j = 102 := Nat.le_antisymm (Samples.overlong_end.2 j hj.1) (hj.2 102 Samples.overlong_end.1)
      subst this
      exact absurd hl (by decide +kernel)
    rcases C74_opens_iff b ⟨Samples.overlong, 0, sched, []⟩ hfit with h | h
    · rw [hf] at h
      exact not_interrupted_ok h
    · exact overlong_not_openable _ (h.1 ⟨f, hf⟩)

/-- C74. The entry at an index can be got at if and only if the index is in range and there is a local header where the
directory says. -/
theorem C74_entry_iff (f : ZipFile) (i : Nat) (s : RState) :
    Interrupted (readerWithEntry f i s).1 ∨
      ((∃ x, (readerWithEntry f i s).1 = .ok x) ↔ ∃ e, f.entries[i]? = some e ∧ OccursAt s.data sigLocal e.fileOffset ∧
        e.fileOffset + 30 ≤ s.data.length) := by
  by_cases hi : Interrupted (readerWithEntry f i s).1
  · exact Or.inl hi
  refine Or.inr ?_
  cases he : f.entries[i]? with
  | none =>
    refine ⟨fun ⟨x, hx⟩ => ?_, fun ⟨e, h, _⟩ => by cases h⟩
    simp only [readerWithEntry, he, throwErr_def] at hx
    cases hx
  | some e =>
    simp only [Option.some.injEq, exists_eq_left']
    have hdef : readerWithEntry f i = (do
        seekToDataOffset e
        pure (EntryReader.new e.entry.compression e.entry.compressedSize.toNat, e.entry)) := by
      simp only [readerWithEntry, he]
    rw [hdef] at hi ⊢
    refine ⟨fun ⟨x, hx⟩ => ?_, fun ⟨h1, h2⟩ => ?_⟩
    · obtain ⟨_, s1, h1, _⟩ := bind_ok_iff.1 (show _ = (Except.ok x, _) from Prod.ext hx rfl)
      obtain ⟨g1, g2, _⟩ := seekToDataOffset_ok h1
      exact ⟨g1, g2⟩
    · obtain ⟨pos', hr⟩ := Runs.seekToDataOffset (pos := s.pos) h1 h2
      have hr' := Runs.bind
        (f := fun _ => pure (EntryReader.new e.entry.compression e.entry.compressedSize.toNat, e.entry)) hr Runs.pure
      rcases hr'.of_chunkIndep (ChunkIndep.bind (seekToDataOffset_chunkIndep e) fun _ => ChunkIndep.pure _) s rfl rfl with h | h
      · exact absurd h hi
      · exact ⟨_, h.1⟩

/-- The entry of `Samples.one` can be got at under every schedule that does not interrupt; there is no other. -/
example (sched : Option (List RdResp)) :
    (Interrupted (readerWithEntry Samples.oneFile 0 ⟨Samples.one, 0, sched, []⟩).1 ∨
      ∃ x, (readerWithEntry Samples.oneFile 0 ⟨Samples.one, 0, sched, []⟩).1 = .ok x) ∧
    ¬ ∃ x, (readerWithEntry Samples.oneFile 1 ⟨Samples.one, 0, sched, []⟩).1 = .ok x := by
  constructor
  · exact (C74_entry_iff Samples.oneFile 0 ⟨Samples.one, 0, sched, []⟩).imp_right fun h =>
      h.2 ⟨Samples.oneFile.entries[0], rfl, show OccursAt Samples.one sigLocal 0 by decide +kernel,
        show 0 + 30 ≤ Samples.one.length by decide +kernel⟩
  · rintro ⟨x, hx⟩
    rcases C74_entry_iff Samples.oneFile 1 ⟨Samples.one, 0, sched, []⟩ with h | h
    · rw [hx] at h
      exact not_interrupted_ok h
    · obtain ⟨e, he, _⟩ := h.1 ⟨x, hx⟩
      cases he

/-! ## C75 -/

/-- C75. `next` returns an entry if and only if there is a good local header ahead, and reports the end if and only if a
directory record is ahead. -/
theorem C75_next_iff (b : Build) (s : RState) :
    Interrupted (streamNext b s).1 ∨
      (((∃ r, (streamNext b s).1 = .ok (some r)) ↔ GoodHeader s.data s.pos) ∧
       ((streamNext b s).1 = .ok none ↔ OccursAt s.data sigCentral s.pos)) := by
  by_cases hi : Interrupted (streamNext b s).1
  · exact Or.inl hi
  refine Or.inr ⟨⟨?_, ?_⟩, ⟨?_, ?_⟩⟩
  · rintro ⟨r, hr⟩
    exact (GoodHeader.of_ok (b := b) (r := r) (s' := (streamNext b s).2) (Prod.ext hr rfl)).1
  · intro h
    exact (GoodHeader.next b h).resolve_left hi
  · intro h
    rcases C31_accepts_only b s (streamNext b s).2 none (Prod.ext h rfl) with ⟨_, h⟩ | ⟨r, h, _⟩
    · exact h
    · cases h
  · intro h
    rcases (Runs.streamNext_end b h).of_chunkIndep (streamNext_chunkIndep b) s rfl rfl with h | h
    · exact absurd h hi
    · exact h.1

/-- C75. The entry returned carries what the header says, the reader is limited to the declared length (without limit if
there is a data descriptor). -/
theorem C75_shown (b : Build) (s s' : RState) (r : Reading) (h : streamNext b s = (.ok (some r), s')) :
    HeaderAt s.data s.pos r.entry ∧
      r.reader = EntryReader.new r.entry.compression
        (if r.entry.dataDescriptor then 2 ^ 64 - 1 else r.entry.compressedSize.toNat) ∧
      r.dataDescriptor = r.entry.dataDescriptor :=
  (GoodHeader.of_ok h).2

/-- The header at the start of a real archive is good, and a directory record follows its data; the header of a variant
with the encryption bit is not good. -/
theorem one_header_good : GoodHeader Samples.one 0 ∧ OccursAt Samples.one sigCentral 43 ∧
    ¬ GoodHeader (Samples.flagged 8) 0 := by
  refine ⟨⟨by decide +kernel, by decide +kernel, by decide +kernel, ⟨.stored, by decide +kernel⟩, by decide +kernel, ?_⟩,
    by decide +kernel, fun h => ?_⟩
  · rw [show window Samples.one _ _ = [153, 119, 2, 0, 1, 2] by decide +kernel]
    exact one_extra_good
  · exact absurd h.plain (by decide +kernel)

/-- So, unless interrupted, `next` at the start of the archive returns an entry, and after its data reports the end. -/
example (b : Build) (sched : Option (List RdResp)) :
    (Interrupted (streamNext b ⟨Samples.one, 0, sched, []⟩).1 ∨
      ∃ r, (streamNext b ⟨Samples.one, 0, sched, []⟩).1 = .ok (some r)) ∧
    (Interrupted (streamNext b ⟨Samples.one, 43, sched, []⟩).1 ∨
      (streamNext b ⟨Samples.one, 43, sched, []⟩).1 = .ok none) ∧
    ¬ ∃ r, (streamNext b ⟨Samples.flagged 8, 0, sched, []⟩).1 = .ok (some r) := by
  refine ⟨(C75_next_iff b ⟨Samples.one, 0, sched, []⟩).imp_right fun h => h.1.2 one_header_good.1,
    (C75_next_iff b ⟨Samples.one, 43, sched, []⟩).imp_right fun h => h.2.2 one_header_good.2.1, ?_⟩
  rintro ⟨r, hr⟩
  rcases C75_next_iff b ⟨Samples.flagged 8, 0, sched, []⟩ with h | h
  · rw [hr] at h
    exact not_interrupted_ok h
  · exact one_header_good.2.2 (h.1.1 ⟨r, hr⟩)

end AsyncZip
