import Verif.Proofs.Stream
import Verif.Props.Reading
/-!
# C29-C31: the streaming reader
-/

namespace AsyncZip
open Spec Rd

/-! ## C30 -/

/-- C30. After an entry with a data descriptor, exactly 16 bytes are consumed if they start with the descriptor signature
and 12 otherwise. -/
theorem C30_consumed (s s' : RState) (h : consumeDataDescriptor s = (.ok (), s')) :
    s'.data = s.data ∧ s'.pos = s.pos + (if OccursAt s.data sigDescriptor s.pos then 16 else 12) ∧
      s'.pos ≤ s.data.length := by
  obtain ⟨h1, ⟨h2, h3, h4⟩ | ⟨h2, h3, h4⟩⟩ := consumeDataDescriptor_ok h
  · rw [if_pos h2]; exact ⟨h1, h3, by omega⟩
  · rw [if_neg h2]; exact ⟨h1, h3, by omega⟩

/-- C30. It succeeds whenever those bytes are there and the source is not interrupted. -/
theorem C30_succeeds (s : RState) (h : s.pos + descriptorLength s.data s.pos ≤ s.data.length) :
    Interrupted (consumeDataDescriptor s).1 ∨ (consumeDataDescriptor s).1 = .ok () :=
  (Runs.of_chunkIndep consumeDataDescriptor_chunkIndep (Runs.consumeDataDescriptor h) s rfl rfl).imp id fun h => h.1

/-- C30, concretely, both forms, the source giving three bytes at a time. -/
example : (consumeDataDescriptor ⟨[0x50, 0x4B, 7, 8, 1, 1, 1, 1, 2, 0, 0, 0, 3, 0, 0, 0, 9], 0, none, []⟩).2.pos = 16 ∧
    (consumeDataDescriptor ⟨[1, 1, 1, 1, 2, 0, 0, 0, 3, 0, 0, 0, 9, 9, 9, 9, 9], 0, none, []⟩).2.pos = 12 := by
  have h1 := Runs.consumeDataDescriptor (data := [0x50, 0x4B, 7, 8, 1, 1, 1, 1, 2, 0, 0, 0, 3, 0, 0, 0, 9]) (pos := 0)
    (by decide)
  have h2 := Runs.consumeDataDescriptor (data := [1, 1, 1, 1, 2, 0, 0, 0, 3, 0, 0, 0, 9, 9, 9, 9, 9]) (pos := 0)
    (by decide)
  obtain ⟨l1, e1⟩ := h1 []
  obtain ⟨l2, e2⟩ := h2 []
  rw [e1, e2]
  dsimp only
  decide

/-! ## C29 -/

/-- How many source bytes the streaming reader lets an entry read. -/
def declaredLength (e : ZipEntry) : Nat := if e.dataDescriptor then 2 ^ 64 - 1 else e.compressedSize.toNat

/-- The position after an entry's data (used by its decoder) and its data descriptor, if any. -/
def afterEntry (C : Codec) (e : ZipEntry) (data : Bytes) (start : Nat) : Nat :=
  let p := start + (entryData C e.compression data start (declaredLength e)).used
  if e.dataDescriptor then p + descriptorLength data p else p

theorem next_facts {C : Codec} {b : Build} {s s1 : RState} {r : Reading} (hn : streamNext b s = (.ok (some r), s1)) :
    s1.data = s.data ∧ (dataStart s.data s.pos ≤ s.data.length → s1.pos = dataStart s.data s.pos) ∧
    r.reader.rest C s1 = entryData C r.entry.compression s.data s1.pos (declaredLength r.entry) ∧
    r.dataDescriptor = r.entry.dataDescriptor := by
  obtain ⟨e, h1, h2⟩ := streamNext_ok hn
  cases e with
  | none => cases h2
  | some e =>
    simp only [Option.map_some, Option.some.injEq] at h2
    subst h2
    obtain ⟨g1, ⟨g2, _⟩ | ⟨_, _, _, g2⟩⟩ := lfh_ok h1
    · cases g2
    · refine ⟨g1, g2, ?_, rfl⟩
      rw [rest_new, g1]
      rfl

theorem finish_pos {C : Codec} {e : ZipEntry} {data : Bytes} {start : Nat} {s s' : RState} (hd : s.data = data)
    (hp : s.pos = start + (entryData C e.compression data start (declaredLength e)).used)
    (h : (if e.dataDescriptor then consumeDataDescriptor else pure ()) s = (.ok (), s')) :
    s'.data = data ∧ s'.pos = afterEntry C e data start := by
  unfold afterEntry
  split at h
  · rename_i hdd
    obtain ⟨h1, h2, _⟩ := C30_consumed _ _ h
    simp only [hdd, if_true]
    rw [hd, hp] at h2
    exact ⟨h1.trans hd, h2⟩
  · rename_i hdd
    simp only [pure_def, Prod.mk.injEq, true_and] at h
    subst h
    simp only [hdd, Bool.false_eq_true, if_false]
    exact ⟨hd, hp⟩

/-- C29. If `done` succeeds, all of the entry's data has been delivered, and the source is exactly after the bytes the
entry's decoder used and after its data descriptor. -/
theorem C29_done (C : Codec) (b : Build) (s s1 s2 s3 : RState) (r : Reading) (t : List Got) (er : EntryReader)
    (hn : streamNext b s = (.ok (some r), s1)) (hu : Use C r.reader s1 t er s2)
    (hd : ({ r with reader := er } : Reading).done C s2 = (.ok (), s3)) :
    delivered t = (entryData C r.entry.compression s.data s1.pos (declaredLength r.entry)).out ∧
    (entryData C r.entry.compression s.data s1.pos (declaredLength r.entry)).ok = true ∧
    s3.data = s.data ∧ s3.pos = afterEntry C r.entry s.data s1.pos := by
  obtain ⟨n1, _, n3, n4⟩ := next_facts (C := C) hn
  obtain ⟨u1, _, u3, u4, u5⟩ := use_spec hu
  replace hd := bind_ok_iff.1 hd
  obtain ⟨⟨x, er'⟩, s4, h1, hd⟩ := hd
  obtain ⟨r1, _, _, _, _, _, _, r7⟩ := read_ok h1
  simp only at hd
  split at hd
  · simp at hd
  · rename_i hx
    have hx : x = [] := List.length_eq_zero_iff.1 (Decidable.not_not.1 hx)
    obtain ⟨r8, r9, r10⟩ := r7 (by omega) hx
    rw [n3] at u3 u4 u5
    rw [r8, List.append_nil] at u3
    refine ⟨u3, u4 ▸ r9, ?_⟩
    have := finish_pos (C := C) (e := r.entry) (data := s.data) (start := s1.pos) (s := s4) (s' := s3)
      (r1.trans (u1.trans n1)) (r10.trans u5) (by rw [n4] at hd; exact hd)
    exact this

/-- C29. With data left to read, `done` reports `EOFNotReached` (or the source's failure). -/
theorem C29_done_early (C : Codec) (b : Build) (s s1 s2 : RState) (r : Reading) (t : List Got) (er : EntryReader)
    (hn : streamNext b s = (.ok (some r), s1)) (hu : Use C r.reader s1 t er s2)
    (hleft : delivered t ≠ (entryData C r.entry.compression s.data s1.pos (declaredLength r.entry)).out) :
    Interrupted (({ r with reader := er } : Reading).done C s2).1 ∨
      (({ r with reader := er } : Reading).done C s2).1 = .error (.err .eofNotReached) := by
  obtain ⟨n1, _, n3, n4⟩ := next_facts (C := C) hn
  obtain ⟨u1, _, u3, u4, u5⟩ := use_spec hu
  rw [n3] at u3
  have hrest : (er.rest C s2).out ≠ [] := by
    intro h
    rw [h, List.append_nil] at u3
    exact hleft u3
  unfold Reading.done
  simp only [bind_def]
  cases hr : er.read C 1 s2 with
  | mk x s4 =>
    cases x with
    | error e =>
      refine Or.inl ?_
      rcases (read_err hr).2.2 with hi | ⟨_, h, _⟩
      · rcases hi with h | ⟨c, h⟩
        · exact Or.inl (by cases h; rfl)
        · exact Or.inr ⟨c, by cases h; rfl⟩
      · exact absurd h hrest
    | ok y =>
      obtain ⟨x, er'⟩ := y
      have hx : x.length ≠ 0 := fun h => hrest ((read_ok hr).2.2.2.2.2.2.2 (by omega) (List.length_eq_zero_iff.1 h)).1
      refine Or.inr ?_
      simp only
      rw [if_pos hx]
      rfl

/-- C29. `skip` after any reads leaves the source at the same place. -/
theorem C29_skip (C : Codec) (b : Build) (s s1 s2 s3 : RState) (r : Reading) (t : List Got) (er : EntryReader)
    (hn : streamNext b s = (.ok (some r), s1)) (hu : Use C r.reader s1 t er s2)
    (hd : ({ r with reader := er } : Reading).skip C s2 = (.ok (), s3)) :
    s3.data = s.data ∧ s3.pos = afterEntry C r.entry s.data s1.pos := by
  obtain ⟨n1, _, n3, n4⟩ := next_facts (C := C) hn
  obtain ⟨u1, _, u3, u4, u5⟩ := use_spec hu
  replace hd := bind_ok_iff.1 hd
  obtain ⟨⟨x, er'⟩, s4, h1, hd⟩ := hd
  obtain ⟨r1, r2, r3, r4, r5⟩ := readToEnd_ok (by omega) h1
  rw [n3] at u5
  exact finish_pos (C := C) (e := r.entry) (data := s.data) (start := s1.pos) (s := s4) (s' := s3)
    (r4.trans (u1.trans n1)) (r3.trans u5) (by rw [← n4]; exact hd)

/-- C29. The data begins right after the local header, if that is complete. -/
theorem C29_data_start (b : Build) (s s1 : RState) (r : Reading) (hn : streamNext b s = (.ok (some r), s1))
    (hfit : dataStart s.data s.pos ≤ s.data.length) : s1.pos = dataStart s.data s.pos :=
  (next_facts (C := Samples.lengthCodec) hn).2.1 hfit

/-- C29. For an entry whose decoder uses all the declared bytes (always so if stored) and that is not cut off by the end
of the source, that place is the end of the declared data: where the next header is. -/
theorem C29_exact_partial (C : Codec) (e : ZipEntry) (data : Bytes) (start : Nat) (hdd : e.dataDescriptor = false)
    (hfit : start + e.compressedSize.toNat ≤ data.length)
    (hall : e.compression = .stored ∨
      (entryData C e.compression data start e.compressedSize.toNat).used = e.compressedSize.toNat) :
    afterEntry C e data start = start + e.compressedSize.toNat := by
  unfold afterEntry declaredLength
  simp only [hdd, Bool.false_eq_true, if_false]
  rcases hall with h | h
  · unfold entryData
    rw [if_pos h]
    simp only [window, List.length_take, List.length_drop]
    omega
  · omega

/-- A release build. -/
def Samples.build : Build := { overflowChecks := false, maxVecEntries := 1 }

/-- A local header with method 8 declaring 4 bytes of data of which the decoder uses 3, then the directory. -/
def Samples.trailing : Bytes :=
  sigLocal ++ [20, 0, 0, 0, 8, 0, 0, 0, 0, 0, 0, 0, 0, 0, 4, 0, 0, 0, 2, 0, 0, 0, 1, 0, 0, 0] ++ [97] ++ [2, 104, 105, 0]
    ++ sigCentral

theorem noExtra (b : Build) (x y : UInt32) : parseExtraFields b [] x y = .ok [] :=
  parseExtraLoop_short b x y [] (by decide)

/-- Reading `trailing`. -/
theorem Samples.trailing_next (b : Build) : ∃ r, r.dataDescriptor = false ∧ r.reader = EntryReader.new .deflate 4 ∧
    r.entry.compression = .deflate ∧ r.entry.compressedSize = 4 ∧ r.entry.dataDescriptor = false ∧
    Runs (streamNext b) Samples.trailing 0 (.ok (some r)) 31 := by
  obtain ⟨p, h1, h2⟩ := Runs.lfhAt (b := b) (data := Samples.trailing) (pos := 0) (name := [97]) (xb := [])
    (hb := (Samples.trailing.drop 4).take 26) (by decide) rfl (by decide) (by decide) (by decide)
  have ho : lfhOutcome b (LocalFileHeader.ofBytes ((Samples.trailing.drop 4).take 26)) [97] []
      = .ok (some (lfhEntryOf (LocalFileHeader.ofBytes ((Samples.trailing.drop 4).take 26)) [97] .deflate [])) := by
    unfold lfhOutcome
    rw [show Compression.tryFrom (LocalFileHeader.ofBytes ((Samples.trailing.drop 4).take 26)).compression = .ok .deflate
      by decide, noExtra]
    rfl
  have hp := h2 _ ho
  rw [ho] at h1
  subst hp
  exact ⟨⟨EntryReader.new .deflate 4, _, false⟩, rfl, rfl, rfl, rfl, rfl, Runs.bind h1 Runs.pure⟩

/-- C29 is not exact in general: with bytes left over between the end of the compressed stream and the end of the
declared data, both `done` and `skip` leave the source before the end of the entry's declared data, and the next header
is not found although it is there. -/
theorem C29_exact_fails : ∃ (C : Codec) (b : Build) (data : Bytes) (r : Reading) (s1 s2 : RState),
    streamNext b ⟨data, 0, none, []⟩ = (.ok (some r), s1) ∧ r.skip C s1 = (.ok (), s2) ∧
    s2.pos < s1.pos + r.entry.compressedSize.toNat ∧
    OccursAt data sigCentral (s1.pos + r.entry.compressedSize.toNat) ∧
    (streamNext b s2).1 = .error (.err (.unexpectedHeaderError 0x014b5000 LFH_SIGNATURE)) := by
  obtain ⟨r, g1, g2, g3, g4, g5, h⟩ := Samples.trailing_next Samples.build
  obtain ⟨l, e⟩ := h []
  have e1 : (EntryReader.new .deflate 4).read Samples.lengthCodec 2048 ⟨Samples.trailing, 31, none, l⟩
      = (.ok ([104, 105], ⟨.deflate, 4, some ⟨[], 3, true⟩, Hasher.new.update [104, 105]⟩), ⟨Samples.trailing, 31, none, l⟩) := by
    rfl
  have e2 : (⟨.deflate, 4, some ⟨[], 3, true⟩, Hasher.new.update [104, 105]⟩ : EntryReader).read Samples.lengthCodec 2048
      ⟨Samples.trailing, 31, none, l⟩
      = (.ok ([], ⟨.deflate, 1, some ⟨[], 0, true⟩, Hasher.new.update [104, 105]⟩), ⟨Samples.trailing, 34, none, l⟩) := by
    rfl
  have e3 : r.skip Samples.lengthCodec ⟨Samples.trailing, 31, none, l⟩ = (.ok (), ⟨Samples.trailing, 34, none, l⟩) := by
    unfold Reading.skip EntryReader.readToEnd
    rw [g1, g2]
    have e4 : (EntryReader.new .deflate 4).readLoop Samples.lengthCodec 2048 [] ⟨Samples.trailing, 31, none, l⟩ = _ :=
      (readLoop_step e1 (by decide)).trans (readLoop_stop e2)
    exact bind_of_ok e4
  refine ⟨Samples.lengthCodec, Samples.build, Samples.trailing, r, _, _, e, e3, ?_, ?_, ?_⟩
  · rw [g4]; dsimp only; decide
  · rw [g4]; dsimp only; decide
  · have h4 : ((Samples.trailing.drop 34).take 4).length = 4 := by decide
    apply streamNext_err
    have hr : Runs (lfh Samples.build) Samples.trailing 34
        (.error (.err (.unexpectedHeaderError (fromLe32 ((Samples.trailing.drop 34).take 4)) LFH_SIGNATURE))) 38 :=
      Runs.bind (Runs.readExact rfl h4) (Runs.ite_neg (by decide) (Runs.ite_neg (by decide) Runs.fail))
    obtain ⟨l', e'⟩ := hr l
    rw [e']
    dsimp only
    decide

/-- C29, concretely: reading the two bytes of `trailing`'s entry; `done` fails before, and succeeds after. -/
example (b : Build) : ∃ r s1 er s2 s3, streamNext b ⟨Samples.trailing, 0, none, []⟩ = (.ok (some r), s1) ∧
    (r.done Samples.lengthCodec s1).1 = .error (.err .eofNotReached) ∧
    Use Samples.lengthCodec r.reader s1 [.read 9 [104, 105]] er s2 ∧
    ({ r with reader := er } : Reading).done Samples.lengthCodec s2 = (.ok (), s3) := by
  obtain ⟨r, g1, g2, g3, g4, g5, h⟩ := Samples.trailing_next b
  obtain ⟨l, e⟩ := h []
  obtain ⟨rd, en, dd⟩ := r
  simp only at g1 g2
  subst g1 g2
  refine ⟨_, _, ⟨.deflate, 4, some ⟨[], 3, true⟩, Hasher.new.update [104, 105]⟩, ⟨Samples.trailing, 31, none, l⟩,
    ⟨Samples.trailing, 34, none, l⟩, e, ?_, ?_, ?_⟩
  · rfl
  · exact .read (show (EntryReader.new .deflate 4).read Samples.lengthCodec 9 ⟨Samples.trailing, 31, none, l⟩ = _ from rfl)
      (.refl _ _)
  · rfl

/-! ## C31 -/

/-- C31. An entry is only returned for a local header that is not encrypted, has a known method, and is not stored with
a data descriptor; the end is only reported at the central directory. -/
theorem C31_accepts_only (b : Build) (s s' : RState) (x : Option Reading) (h : streamNext b s = (.ok x, s')) :
    (x = none ∧ OccursAt s.data sigCentral s.pos) ∨
    ∃ r, x = some r ∧ OccursAt s.data sigLocal s.pos ∧ s.pos + 30 ≤ s.data.length ∧
      (fieldAt s.data (s.pos + 6) 2).testBit 0 = false ∧
      (r.entry.compression, fieldAt s.data (s.pos + 8) 2) ∈ methodTable ∧
      r.dataDescriptor = (fieldAt s.data (s.pos + 6) 2).testBit 3 ∧
      ¬ (r.dataDescriptor = true ∧ r.entry.compression = .stored) := by
  obtain ⟨e, h1, h2⟩ := streamNext_ok h
  obtain ⟨_, ⟨g1, g2, _⟩ | ⟨g1, g2, g3, _⟩⟩ := lfh_ok h1
  · subst g1
    exact Or.inl ⟨h2, g2⟩
  · obtain ⟨c, fs, k1, k2, k3, k4, rfl⟩ := lfhOutcome_ok g3
    refine Or.inr ⟨_, h2, g1, g2, ?_, ?_, ?_, k3⟩
    · rw [show (LocalFileHeader.ofBytes (window s.data (s.pos + 4) 26)).flags
        = GeneralPurposeFlag.ofU16 (fromLe16 (slice (window s.data (s.pos + 4) 26) 2 (2 + 2))) from rfl, flags_ofU16,
        lhField g2 (by omega)] at k4
      exact k4
    · have := compression_ok k1
      rw [show (LocalFileHeader.ofBytes (window s.data (s.pos + 4) 26)).compression
        = fromLe16 (slice (window s.data (s.pos + 4) 26) 4 (4 + 2)) from rfl, lhField g2 (by omega)] at this
      exact this
    · show (LocalFileHeader.ofBytes (window s.data (s.pos + 4) 26)).flags.dataDescriptor = _
      rw [show (LocalFileHeader.ofBytes (window s.data (s.pos + 4) 26)).flags
        = GeneralPurposeFlag.ofU16 (fromLe16 (slice (window s.data (s.pos + 4) 26) 2 (2 + 2))) from rfl, flags_ofU16,
        lhField g2 (by omega)]

theorem streamNext_of_lfh {b : Build} {s : RState} {e : Fail} (h : Interrupted (lfh b s).1 ∨ (lfh b s).1 = .error e) :
    Interrupted (streamNext b s).1 ∨ (streamNext b s).1 = .error e := by
  rcases h with (h | ⟨c, h⟩) | h
  · exact Or.inl (Or.inl (streamNext_err h))
  · exact Or.inl (Or.inr ⟨c, streamNext_err h⟩)
  · exact Or.inr (streamNext_err h)

/-- C31. Any other signature is reported, with its value. -/
theorem C31_unknown_signature (b : Build) (s : RState) (hl : s.pos + 4 ≤ s.data.length)
    (h1 : ¬ OccursAt s.data sigLocal s.pos) (h2 : ¬ OccursAt s.data sigCentral s.pos) :
    Interrupted (streamNext b s).1 ∨ ∃ v : UInt32, v.toNat = fieldAt s.data s.pos 4 ∧
      (streamNext b s).1 = .error (.err (.unexpectedHeaderError v 0x04034b50)) := by
  rcases lfh_unknown b s hl h1 h2 with h | ⟨v, hv, h⟩
  · rcases h with h | ⟨c, h⟩
    · exact Or.inl (Or.inl (streamNext_err h))
    · exact Or.inl (Or.inr ⟨c, streamNext_err h⟩)
  · exact Or.inr ⟨v, hv, streamNext_err h⟩

theorem compression_err {v : UInt16} {e : Fail} (h : Compression.tryFrom v = .error e) :
    e = .err (.compressionNotSupported v) := by
  revert h
  unfold Compression.tryFrom
  repeat' split
  all_goals
    intro h
    cases h
  rfl

/-- C31. An unknown method is reported, with its number. -/
theorem C31_unknown_method (b : Build) (s : RState) (hs : OccursAt s.data sigLocal s.pos) (hl : s.pos + 30 ≤ s.data.length)
    (hm : ∀ c, (c, fieldAt s.data (s.pos + 8) 2) ∉ methodTable) :
    Interrupted (streamNext b s).1 ∨ ∃ v : UInt16, v.toNat = fieldAt s.data (s.pos + 8) 2 ∧
      (streamNext b s).1 = .error (.err (.compressionNotSupported v)) := by
  have hv : (LocalFileHeader.ofBytes (window s.data (s.pos + 4) 26)).compression.toNat = fieldAt s.data (s.pos + 8) 2 :=
    lhField hl (i := 4) (by omega)
  have ho : ∀ n xb, lfhOutcome b (LocalFileHeader.ofBytes (window s.data (s.pos + 4) 26)) n xb
      = .error (.err (.compressionNotSupported (LocalFileHeader.ofBytes (window s.data (s.pos + 4) 26)).compression)) := by
    intro n xb
    unfold lfhOutcome
    cases hc : Compression.tryFrom (LocalFileHeader.ofBytes (window s.data (s.pos + 4) 26)).compression with
    | ok c => exact absurd (hv ▸ compression_ok hc) (hm c)
    | error e =>
      rw [compression_err hc]
      rfl
  rcases streamNext_of_lfh (b := b) ((lfh_at b s hs hl).imp id fun h => h.trans (ho _ _)) with h | h
  · exact Or.inl h
  · exact Or.inr ⟨_, hv, h⟩

/-- The name and extra fields of the local header at `pos`, as far as the source has them. -/
def lfhExtraBytes (data : Bytes) (pos : Nat) : Bytes :=
  window data (pos + 30 + (window data (pos + 30) (fieldAt data (pos + 26) 2)).length) (fieldAt data (pos + 28) 2)

/-- C31. With a known method and well-formed extra fields, encryption and stored data with a data descriptor are
reported as unsupported features. -/
theorem C31_unsupported (b : Build) (s : RState) (hs : OccursAt s.data sigLocal s.pos) (hl : s.pos + 30 ≤ s.data.length)
    (c : Compression) (hm : (c, fieldAt s.data (s.pos + 8) 2) ∈ methodTable)
    (hx : ∃ fs, parseExtraFields b (lfhExtraBytes s.data s.pos)
      (LocalFileHeader.ofBytes (window s.data (s.pos + 4) 26)).uncompressedSize
      (LocalFileHeader.ofBytes (window s.data (s.pos + 4) 26)).compressedSize = .ok fs)
    (hbad : (fieldAt s.data (s.pos + 6) 2).testBit 0 = true ∨
      ((fieldAt s.data (s.pos + 6) 2).testBit 3 = true ∧ c = .stored)) :
    Interrupted (streamNext b s).1 ∨ (streamNext b s).1 = .error (.err (.featureNotSupported
      (if (fieldAt s.data (s.pos + 6) 2).testBit 3 = true ∧ c = .stored then
        "stream reading entries with data descriptors & Stored compression mode" else "encryption"))) := by
  obtain ⟨fs, hx⟩ := hx
  have hv : (LocalFileHeader.ofBytes (window s.data (s.pos + 4) 26)).compression.toNat = fieldAt s.data (s.pos + 8) 2 :=
    lhField hl (i := 4) (by omega)
  have hfl : (LocalFileHeader.ofBytes (window s.data (s.pos + 4) 26)).flags
        = ⟨(fieldAt s.data (s.pos + 6) 2).testBit 0, (fieldAt s.data (s.pos + 6) 2).testBit 3,
            (fieldAt s.data (s.pos + 6) 2).testBit 11⟩ := by
    rw [show (LocalFileHeader.ofBytes (window s.data (s.pos + 4) 26)).flags
        = GeneralPurposeFlag.ofU16 (fromLe16 (slice (window s.data (s.pos + 4) 26) 2 (2 + 2))) from rfl, flags_ofU16,
        lhField hl (by omega)]
  have hc : Compression.tryFrom (LocalFileHeader.ofBytes (window s.data (s.pos + 4) 26)).compression = .ok c := by
    generalize (LocalFileHeader.ofBytes (window s.data (s.pos + 4) 26)).compression = v at *
    rw [← hv] at hm
    have hin : ∀ n : Nat, n < 65536 → v.toNat = n → v = UInt16.ofNat n := by
      intro n hn h
      apply UInt16.toNat_inj.1
      rw [h, UInt16.toNat_ofNat']
      omega
    simp only [methodTable, List.mem_cons, Prod.mk.injEq, List.not_mem_nil, or_false] at hm
    rcases hm with ⟨rfl, h⟩ | ⟨rfl, h⟩ | ⟨rfl, h⟩ | ⟨rfl, h⟩ | ⟨rfl, h⟩ | ⟨rfl, h⟩ | ⟨rfl, h⟩ <;>
      (rw [hin _ (by decide) h]; rfl)
  refine streamNext_of_lfh ((lfh_at b s hs hl).imp id fun h => h.trans ?_)
  unfold lfhOutcome
  rw [hc]
  unfold lfhExtraBytes at hx
  rw [hx]
  simp only [bind, Except.bind, hfl]
  generalize (fieldAt s.data (s.pos + 6) 2).testBit 3 = d at *
  generalize (fieldAt s.data (s.pos + 6) 2).testBit 0 = k at *
  by_cases h1 : d = true ∧ c = .stored
  · obtain ⟨rfl, rfl⟩ := h1
    rfl
  · rw [if_neg h1]
    have h2 : (d && c == .stored) = false := by
      cases d
      · rfl
      · simp only [Bool.true_and]
        cases c <;> first | rfl | exact absurd ⟨rfl, rfl⟩ h1
    rw [if_neg (by rw [h2]; simp)]
    rcases hbad with rfl | hbad
    · rfl
    · exact absurd hbad h1

/-- A local header with flags 9: encrypted, with data descriptor. -/
def Samples.flagged (method : UInt8) : Bytes :=
  sigLocal ++ [20, 0, 9, 0, method, 0, 0, 0, 0, 0, 0, 0, 0, 0, 4, 0, 0, 0, 2, 0, 0, 0, 1, 0, 0, 0] ++ [97]

/-- C31, concretely: `C31_unsupported` and `C31_unknown_method` apply to these headers, and a name is not a signature. -/
example (b : Build) (sched : Option (List RdResp)) :
    (Interrupted (streamNext b ⟨Samples.flagged 8, 0, sched, []⟩).1 ∨
      (streamNext b ⟨Samples.flagged 8, 0, sched, []⟩).1 = .error (.err (.featureNotSupported "encryption"))) ∧
    (Interrupted (streamNext b ⟨Samples.flagged 0, 0, sched, []⟩).1 ∨
      (streamNext b ⟨Samples.flagged 0, 0, sched, []⟩).1 = .error (.err (.featureNotSupported
        "stream reading entries with data descriptors & Stored compression mode"))) ∧
    (Interrupted (streamNext b ⟨Samples.flagged 1, 0, sched, []⟩).1 ∨
      ∃ v : UInt16, v.toNat = 1 ∧ (streamNext b ⟨Samples.flagged 1, 0, sched, []⟩).1
        = .error (.err (.compressionNotSupported v))) ∧
    (Interrupted (streamNext b ⟨Samples.flagged 8, 1, sched, []⟩).1 ∨ ∃ v : UInt32, v.toNat = 0x1404034b ∧
      (streamNext b ⟨Samples.flagged 8, 1, sched, []⟩).1 = .error (.err (.unexpectedHeaderError v 0x04034b50))) := by
  refine ⟨?_, ?_, ?_, ?_⟩
  · have := C31_unsupported b ⟨Samples.flagged 8, 0, sched, []⟩ (by dsimp only; decide) (by dsimp only; decide) .deflate
      (by dsimp only; decide)
      ⟨[], by rw [show lfhExtraBytes (Samples.flagged 8) 0 = [] by decide]; exact noExtra _ _ _⟩ (by dsimp only; decide)
    rw [if_neg (by dsimp only; decide)] at this
    exact this
  · have := C31_unsupported b ⟨Samples.flagged 0, 0, sched, []⟩ (by dsimp only; decide) (by dsimp only; decide) .stored
      (by dsimp only; decide)
      ⟨[], by rw [show lfhExtraBytes (Samples.flagged 0) 0 = [] by decide]; exact noExtra _ _ _⟩ (by dsimp only; decide)
    rw [if_pos (by dsimp only; decide)] at this
    exact this
  · have := C31_unknown_method b ⟨Samples.flagged 1, 0, sched, []⟩ (by dsimp only; decide) (by dsimp only; decide)
      (by intro c; cases c <;> (dsimp only; decide))
    dsimp only at this
    rw [show fieldAt (Samples.flagged 1) (0 + 8) 2 = 1 by decide] at this
    exact this
  · have := C31_unknown_signature b ⟨Samples.flagged 8, 1, sched, []⟩ (by dsimp only; decide) (by dsimp only; decide)
      (by dsimp only; decide)
    dsimp only at this
    rw [show fieldAt (Samples.flagged 8) 1 4 = 0x1404034b by decide] at this
    exact this

end AsyncZip
