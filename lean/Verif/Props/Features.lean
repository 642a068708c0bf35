import Verif.Proofs.Features
import Verif.Props.Agree
import Verif.Props.Streaming
/-!
# C94: builds without some of the compression methods
-/

namespace AsyncZip
open Rd Spec

/-- C94. A build opens exactly the files that the full one opens and whose entries all have methods of the build; and with the same
result, leaving the source in the same state. -/
theorem C94_opens (F : Features) (b : Build) (s s' : RState) (f : ZipFile) :
    openFileWith F b s = (.ok f, s') ↔
      openFile b s = (.ok f, s') ∧ ∀ e ∈ f.entries, Features.Has F e.entry.compression := by
  obtain ⟨h1, h2, h3⟩ := openFile_thins F b s
  have hm : ∀ f : ZipFile, (∀ x ∈ f.entries.map fun e => e.entry.compression, Features.Has F x) ↔
      ∀ e ∈ f.entries, Features.Has F e.entry.compression := by simp
  constructor
  · intro h
    rcases ho : openFile b s with ⟨r | g, t⟩
    · rcases h3 r t ho with h4 | ⟨v, _, h4⟩
      · rw [h] at h4; cases h4
      · rw [h] at h4; cases h4
    · by_cases hg : ∀ x ∈ g.entries.map fun e => e.entry.compression, Features.Has F x
      · have := h1 g t ho hg
        rw [h] at this
        cases this
        exact ⟨rfl, (hm f).1 hg⟩
      · have : ∃ x ∈ g.entries.map fun e => e.entry.compression, ¬ Features.Has F x := by
          simpa using hg
        obtain ⟨v, _, h4⟩ := h2 g t ho this
        rw [h] at h4; cases h4
  · intro ⟨h, hx⟩
    exact h1 f s' h ((hm f).2 hx)

/-- C94. If the full build opens a file and this one does not, the error names the method of the first entry in the directory that
this build lacks. One such entry is enough for none of the others to be available. -/
theorem C94_error (F : Features) (b : Build) (s s' : RState) (f : ZipFile) (h : openFile b s = (.ok f, s'))
    (hx : ∃ e ∈ f.entries, ¬ Features.Has F e.entry.compression) :
    ∃ v, FirstLacking F (f.entries.map fun e => e.entry.compression) v ∧
      (openFileWith F b s).1 = .error (.err (.compressionNotSupported v)) := by
  refine (openFile_thins F b s).2.1 f s' h ?_
  obtain ⟨e, he, hn⟩ := hx
  exact ⟨_, List.mem_map_of_mem he, hn⟩

/-- C94. A file that the full build does not open is opened by no other: the error is the same, or names a method that this build
lacks. -/
theorem C94_failing (F : Features) (b : Build) (s s' : RState) (e : Fail) (h : openFile b s = (.error e, s')) :
    openFileWith F b s = (.error e, s') ∨
    ∃ v, Lacks F v ∧ (openFileWith F b s).1 = .error (.err (.compressionNotSupported v)) :=
  (openFile_thins F b s).2.2 e s' h

/-- C94. With all methods nothing is different. -/
theorem C94_all (b : Build) (s : RState) : openFileWith allFeatures b s = openFile b s := by
  have ha : ∀ m, Features.Has allFeatures m := by intro m; cases m <;> trivial
  obtain ⟨h1, _, h3⟩ := openFile_thins allFeatures b s
  rcases ho : openFile b s with ⟨r | g, t⟩
  · rcases h3 r t ho with h4 | ⟨v, ⟨m, _, hm⟩, _⟩
    · exact h4
    · exact absurd (ha m) hm
  · exact h1 g t ho fun x _ => ha x

/-- C94. The streaming reader of a build takes exactly those headers that the full one takes and whose method the build has, and
says which it lacks otherwise; streams end alike. -/
theorem C94_streaming (F : Features) (b : Build) (s : RState) :
    (∀ r s', streamNext b s = (.ok (some r), s') → Features.Has F r.entry.compression →
      streamNextWith F b s = (.ok (some r), s')) ∧
    (∀ r s', streamNext b s = (.ok (some r), s') → ¬ Features.Has F r.entry.compression →
      (streamNextWith F b s).1 = .error (.err (.compressionNotSupported r.entry.compression.toU16))) ∧
    (∀ s', streamNext b s = (.ok none, s') → streamNextWith F b s = (.ok none, s')) ∧
    (∀ e s', streamNext b s = (.error e, s') → streamNextWith F b s = (.error e, s') ∨
      ∃ v, Lacks F v ∧ (streamNextWith F b s).1 = .error (.err (.compressionNotSupported v))) := by
  obtain ⟨h1, h2, h3⟩ := lfh_thins F b s
  simp only [streamNext, streamNextWith, Bind.bind]
  rcases hl : lfh b s with ⟨r | e, t⟩
  · simp only
    refine ⟨fun _ _ h => (by cases h), fun _ _ h => (by cases h), fun _ h => (by cases h), fun e s' h => ?_⟩
    cases h
    rcases h3 r t hl with h4 | ⟨v, hv, h4⟩
    · rw [h4]; exact Or.inl rfl
    · refine Or.inr ⟨v, hv, ?_⟩
      rcases hn : lfhWith F b s with ⟨y, s2⟩
      rw [hn] at h4
      simp only at h4
      subst h4
      rfl
  · simp only
    cases e with
    | none =>
      rw [h1 none t hl (by simp)]
      exact ⟨fun _ _ h => (by cases h), fun _ _ h => (by cases h), fun _ h => h, fun _ _ h => (by cases h)⟩
    | some e =>
      refine ⟨fun r s' h hr => ?_, fun r s' h hr => ?_, fun _ h => (by cases h), fun _ _ h => (by cases h)⟩
      · cases h
        rw [h1 (some e) t hl (by simpa using hr)]
        rfl
      · cases h
        obtain ⟨v, ⟨p, m, q, h4, _, _, h5⟩, h6⟩ := h2 (some e) t hl ⟨e.compression, by simp, hr⟩
        have h7 : v = e.compression.toU16 := by
          cases p with
          | nil => cases h4; exact h5
          | cons x p => simp at h4
        subst h7
        rcases hn : lfhWith F b s with ⟨y, s2⟩
        rw [hn] at h6
        simp only at h6
        subst h6
        rfl

namespace Samples

/-- A directory of two entries, "a" stored and "b" deflated. -/
def twoKinds : Bytes :=
  [80, 75, 1, 2, 20, 3, 20, 0, 0, 0, 0, 0, 131, 24, 34, 80, 0, 0, 0, 0, 0, 0, 0, 0, 0, 0, 0, 0, 1, 0, 0, 0, 0, 0, 0, 0, 0,
   0, 0, 0, 0, 0, 0, 0, 0, 0, 97, 80, 75, 1, 2, 20, 3, 20, 0, 0, 0, 8, 0, 131, 24, 34, 80, 0, 0, 0, 0, 0, 0, 0, 0, 0, 0, 0,
   0, 1, 0, 0, 0, 0, 0, 0, 0, 0, 0, 0, 0, 0, 0, 0, 0, 0, 0, 98, 80, 75, 5, 6, 0, 0, 0, 0, 2, 0, 2, 0, 94, 0, 0, 0, 0, 0, 0,
   0, 0, 0]

def twoKindsHeader (method : UInt16) : CentralDirectoryRecord :=
  { vMadeBy := 788, vNeeded := 20, flags := { encrypted := false, dataDescriptor := false, filenameUnicode := false }
    compression := method, modTime := 6275, modDate := 20514, crc := 0, compressedSize := 0, uncompressedSize := 0
    fileNameLength := 1, extraFieldLength := 0, fileCommentLength := 0, diskStart := 0, interAttr := 0, exterAttr := 0
    lhOffset := 0 }

/-- What the full build finds in it. -/
def twoKindsFile : ZipFile :=
  { entries := [cdEntryOf (twoKindsHeader 0) [97] .stored [] [], cdEntryOf (twoKindsHeader 8) [98] .deflate [] []]
    zip64 := false
    comment := ⟨.utf8, [], none⟩ }

theorem twoKinds_opens (B : Build) (hb : 2 ≤ B.maxVecEntries) (s : RState) (hs : s.data = twoKinds) :
    Interrupted (openFile B s).1 ∨ (openFile B s).1 = .ok twoKindsFile := by
  have he : OccursAt twoKinds eocdrSig 94 ∧ ∀ j', OccursAt twoKinds eocdrSig j' → j' ≤ 94 :=
    lastEnd_of_decide (by unfold OccursAt; decide +kernel)
  have hr : Runs (openFile B) twoKinds s.pos (.ok twoKindsFile) 94 := by
    refine Runs.openFile (re := .ok twoKindsFile.entries) (comment := []) (eo := ⟨0, 0, 2, 2, 94, 0, 0⟩) he.1 he.2
      (by decide +kernel) (by decide +kernel) (by decide +kernel)
      (fun p => ⟨_, Runs.readCombined_plain (by decide) rfl (by decide +kernel) (by decide +kernel)⟩) rfl rfl
      (Runs.cd hb ?_)
    exact Runs.cdLoop_cons (Runs.cdRecord (rest := twoKinds.drop 47) (xb := []) (by decide +kernel)
      rfl rfl rfl rfl (parseExtraLoop_short B 0 0 [] (by decide)))
      (Runs.cdLoop_cons (Runs.cdRecord (rest := twoKinds.drop 94) (xb := []) (by decide +kernel)
        rfl rfl rfl rfl (parseExtraLoop_short B 0 0 [] (by decide))) Runs.pure)
  exact (hr.of_chunkIndep (openFile_chunkIndep B) s hs rfl).imp id fun h => h.1

end Samples

/-- C94 on data: a build without deflate does not open this file, and says why; one with deflate only does. -/
example (B : Build) (hb : 2 ≤ B.maxVecEntries) (s : RState) (hs : s.data = Samples.twoKinds) (hi : ¬ Interrupted (openFile B s).1) :
    (openFileWith noFeatures B s).1 = .error (.err (.compressionNotSupported 8)) ∧
    (openFileWith { noFeatures with deflate := true } B s).1 = .ok Samples.twoKindsFile := by
  have h := (Samples.twoKinds_opens B hb s hs).resolve_left hi
  rcases ho : openFile B s with ⟨r, s'⟩
  rw [ho] at h
  simp only at h
  subst h
  constructor
  · obtain ⟨v, ⟨p, m, q, h1, h2, h3, h4⟩, h5⟩ := C94_error noFeatures B s s' _ ho
      ⟨_, List.mem_cons_of_mem _ List.mem_cons_self, by decide⟩
    rw [h5]
    change [Compression.stored, .deflate] = _ at h1
    cases p with
    | nil => cases h1; exact absurd trivial h3
    | cons x p =>
      cases p with
      | nil => cases h1; rw [h4]; rfl
      | cons y p => simp at h1
  · rw [(C94_opens _ B s s' _).2 ⟨ho, ?_⟩]
    intro e he
    rcases List.mem_cons.1 he with rfl | he
    · trivial
    · rw [List.mem_singleton.1 he]; rfl

/-- C94 on data: a stream with a deflated entry, to builds with and without deflate. -/
example (b : Build) : ∃ r,
    (streamNextWith { noFeatures with deflate := true } b ⟨Samples.trailing, 0, none, []⟩).1 = .ok (some r) ∧
    r.entry.compression = .deflate ∧
    (streamNextWith noFeatures b ⟨Samples.trailing, 0, none, []⟩).1 = .error (.err (.compressionNotSupported 8)) := by
  obtain ⟨r, _, _, h1, _, _, h2⟩ := Samples.trailing_next b
  obtain ⟨l, h3⟩ := h2 []
  refine ⟨r, ?_, h1, ?_⟩
  · rw [(C94_streaming _ b _).1 r _ h3 (by rw [h1]; rfl)]
  · rw [(C94_streaming _ b _).2.1 r _ h3 (by rw [h1]; decide), h1]
    rfl

end AsyncZip
