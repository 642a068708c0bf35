import Verif.Proofs.Access
/-!
# The streaming reader
-/

namespace AsyncZip
open Spec Rd

/-- What `lfh` makes of a header, name, method and extra fields (`src/base/read/mod.rs:255-277`). -/
def lfhEntryOf (hd : LocalFileHeader) (name : Bytes) (c : Compression) (fs : List ExtraField) : ZipEntry :=
  let sizes := getCombinedSizes hd.uncompressedSize hd.compressedSize (getZip64ExtraField fs)
  { filename := detectFilename name hd.flags.filenameUnicode fs
    compression := c
    compressionLevel := .default
    attributeCompatibility := .unix
    crc32 := hd.crc
    uncompressedSize := sizes.1
    compressedSize := sizes.2
    lastModificationDate := { date := hd.modDate, time := hd.modTime }
    internalFileAttribute := 0
    externalFileAttribute := 0
    extraFields := fs
    comment := emptyZipString
    dataDescriptor := hd.flags.dataDescriptor }

/-- The outcome of `lfh` once the header, name and extra field bytes are known. -/
def lfhOutcome (b : Build) (hd : LocalFileHeader) (name xb : Bytes) : Res (Option ZipEntry) := do
  let c ← Compression.tryFrom hd.compression
  let fs ← parseExtraFields b xb hd.uncompressedSize hd.compressedSize
  if hd.flags.dataDescriptor && c == .stored then
    .error (.err (.featureNotSupported "stream reading entries with data descriptors & Stored compression mode"))
  else if hd.flags.encrypted then .error (.err (.featureNotSupported "encryption"))
  else .ok (some (lfhEntryOf hd name c fs))

/-- `lfh` at a local header, on the ideal source. -/
theorem Runs.lfhAt {b : Build} {data hb name xb : Bytes} {pos : Nat} (hsig : (data.drop pos).take 4 = le32 LFH_SIGNATURE)
    (hh : (data.drop (pos + 4)).take 26 = hb) (hl : hb.length = 26)
    (hn : (data.drop (pos + 30)).take (LocalFileHeader.ofBytes hb).fileNameLength.toNat = name)
    (hx : (data.drop (pos + 30 + name.length)).take (LocalFileHeader.ofBytes hb).extraFieldLength.toNat = xb) :
    ∃ pos', Runs (lfh b) data pos (lfhOutcome b (LocalFileHeader.ofBytes hb) name xb) pos' ∧
      (∀ x, lfhOutcome b (LocalFileHeader.ofBytes hb) name xb = .ok x → pos' = pos + 30 + name.length + xb.length) := by
  have h1 : Runs (Rd.readExact 4) data pos (.ok (le32 LFH_SIGNATURE)) (pos + 4) := Runs.readExact hsig (by simp)
  have h2 : Runs AsyncZip.LocalFileHeader.fromReader data (pos + 4) (.ok (LocalFileHeader.ofBytes hb)) (pos + 4 + 26) :=
    Runs.bind (Runs.readExact hh hl) Runs.pure
  rw [show pos + 4 + 26 = pos + 30 by omega] at h2
  have h3 := Runs.readBytes hn
  have h4 := Runs.readBytes hx
  generalize LocalFileHeader.ofBytes hb = hd at *
  unfold lfh lfhOutcome
  cases hc : Compression.tryFrom hd.compression with
  | error e =>
    refine ⟨pos + 30 + name.length, Runs.bind h1 (Runs.ite_pos (fromLe32_le32 _) (Runs.bind h2 (Runs.bind h3 ?_))), ?_⟩
    · exact Runs.bind_error (by rw [hc]; exact Runs.lift)
    · intro x hx; cases hx
  | ok c =>
    cases hf : parseExtraFields b xb hd.uncompressedSize hd.compressedSize with
    | error e =>
      refine ⟨pos + 30 + name.length + xb.length,
        Runs.bind h1 (Runs.ite_pos (fromLe32_le32 _) (Runs.bind h2 (Runs.bind h3 (Runs.bind (Runs.liftOk hc)
          (Runs.bind h4 ?_))))), ?_⟩
      · exact Runs.bind_error (by rw [hf]; exact Runs.lift)
      · intro x hx; cases hx
    | ok fs =>
      refine ⟨pos + 30 + name.length + xb.length,
        Runs.bind h1 (Runs.ite_pos (fromLe32_le32 _) (Runs.bind h2 (Runs.bind h3 (Runs.bind (Runs.liftOk hc)
          (Runs.bind h4 (Runs.bind (Runs.liftOk hf) ?_)))))), fun _ _ => rfl⟩
      simp only [Bind.bind, Except.bind]
      by_cases g1 : (hd.flags.dataDescriptor && c == .stored) = true
      · simp only [g1, if_true]; exact Runs.fail
      · by_cases g2 : hd.flags.encrypted = true
        · simp only [g1, g2, if_true, Bool.false_eq_true, if_false]; exact Runs.fail
        · simp only [g1, g2, Bool.false_eq_true, if_false]; exact Runs.pure

/-- A successful `lfh` saw a complete local header, or the central directory's signature. -/
theorem lfh_ok {b : Build} {s s' : RState} {x : Option ZipEntry} (h : lfh b s = (.ok x, s')) :
    s'.data = s.data ∧
    ((x = none ∧ OccursAt s.data sigCentral s.pos ∧ s'.pos = s.pos + 4) ∨
     (OccursAt s.data sigLocal s.pos ∧ s.pos + 30 ≤ s.data.length ∧
      lfhOutcome b (LocalFileHeader.ofBytes (window s.data (s.pos + 4) 26))
        (window s.data (s.pos + 30) (fieldAt s.data (s.pos + 26) 2))
        (window s.data (s.pos + 30 + (window s.data (s.pos + 30) (fieldAt s.data (s.pos + 26) 2)).length)
          (fieldAt s.data (s.pos + 28) 2)) = .ok x ∧
      (dataStart s.data s.pos ≤ s.data.length → s'.pos = dataStart s.data s.pos))) := by
  have hbind := h
  unfold lfh at h
  replace h := bind_ok_iff.1 h
  obtain ⟨sg, s1, h1, h⟩ := h
  obtain ⟨a1, a2, a3, a4⟩ := readExact_ok h1
  split at h
  · rename_i hs
    rw [fromLe32_eq_iff a2] at hs
    replace h := bind_ok_iff.1 h
    obtain ⟨hd, s2, h2, _⟩ := h
    replace h2 := bind_ok_iff.1 h2
    obtain ⟨hb, s3, h3, _⟩ := h2
    obtain ⟨b1, b2, b3, b4⟩ := readExact_ok h3
    rw [a3, a4] at b1
    have hlen : s.pos + 30 ≤ s.data.length := by
      have := congrArg List.length b1
      rw [List.length_take, List.length_drop, b2] at this
      omega
    have q1 := read16 (data := s.data) b1 b2 22 (by omega)
    have q2 := read16 (data := s.data) b1 b2 24 (by omega)
    rw [show s.pos + 4 + 22 = s.pos + 26 by omega] at q1
    rw [show s.pos + 4 + 24 = s.pos + 28 by omega] at q2
    have q1' : (LocalFileHeader.ofBytes hb).fileNameLength.toNat = fieldAt s.data (s.pos + 26) 2 := q1
    have q2' : (LocalFileHeader.ofBytes hb).extraFieldLength.toNat = fieldAt s.data (s.pos + 28) 2 := q2
    obtain ⟨pos', hr, hp⟩ := Runs.lfhAt (b := b) (by rw [← a1, hs]) b1.symm b2 rfl rfl
    rw [q1', q2'] at hr hp
    rcases Runs.of_chunkIndep (lfh_chunkIndep b) hr s rfl rfl with hi | ⟨g1, g2, g3⟩
    · rw [hbind] at hi; exact absurd hi not_interrupted_ok
    · rw [hbind] at g1 g2 g3
      refine ⟨g2, Or.inr ⟨?_, hlen, ?_, ?_⟩⟩
      · unfold OccursAt
        rw [show sigLocal.length = 4 by decide, ← a1, hs]
        decide
      · rw [show window s.data (s.pos + 4) 26 = hb from b1.symm]
        exact g1.symm
      · intro hfit
        have := hp _ g1.symm
        rw [show s'.pos = pos' from g3, this]
        unfold dataStart at hfit ⊢
        rw [List.length_take, List.length_drop, List.length_take, List.length_drop]
        omega
  · split at h
    · rename_i hs
      rw [fromLe32_eq_iff a2] at hs
      simp only [pure_def, Prod.mk.injEq, Except.ok.injEq] at h
      obtain ⟨rfl, rfl⟩ := h
      refine ⟨a3, Or.inl ⟨rfl, ?_, a4⟩⟩
      unfold OccursAt
      rw [show sigCentral.length = 4 by decide, ← a1, hs]
      decide
    · simp at h

/-- What an accepting outcome says. -/
theorem lfhOutcome_ok {b : Build} {hd : LocalFileHeader} {name xb : Bytes} {x : Option ZipEntry}
    (h : lfhOutcome b hd name xb = .ok x) :
    ∃ c fs, Compression.tryFrom hd.compression = .ok c ∧
      parseExtraFields b xb hd.uncompressedSize hd.compressedSize = .ok fs ∧
      ¬ (hd.flags.dataDescriptor = true ∧ c = .stored) ∧ hd.flags.encrypted = false ∧ x = some (lfhEntryOf hd name c fs) := by
  unfold lfhOutcome at h
  cases hc : Compression.tryFrom hd.compression with
  | error e => rw [hc] at h; cases h
  | ok c =>
    rw [hc] at h
    cases hf : parseExtraFields b xb hd.uncompressedSize hd.compressedSize with
    | error e => rw [hf] at h; cases h
    | ok fs =>
      rw [hf] at h
      simp only [bind, Except.bind] at h
      split at h
      · cases h
      · split at h
        · cases h
        · rename_i g1 g2
          simp only [Except.ok.injEq] at h
          refine ⟨c, fs, rfl, rfl, ?_, by simpa using g2, h.symm⟩
          rintro ⟨g3, rfl⟩
          apply g1
          rw [g3]
          rfl

theorem lhField {data : Bytes} {pos i : Nat} (h : pos + 30 ≤ data.length) (hi : i + 2 ≤ 26) :
    (fromLe16 (slice (window data (pos + 4) 26) i (i + 2))).toNat = fieldAt data (pos + 4 + i) 2 :=
  read16 (data := data) (pos := pos + 4) rfl (by simp only [List.length_take, List.length_drop]; omega) i hi

/-- At a complete local header, under any schedule. -/
theorem lfh_at (b : Build) (s : RState) (hs : OccursAt s.data sigLocal s.pos) (hl : s.pos + 30 ≤ s.data.length) :
    Interrupted (lfh b s).1 ∨ (lfh b s).1 = lfhOutcome b (LocalFileHeader.ofBytes (window s.data (s.pos + 4) 26))
        (window s.data (s.pos + 30) (fieldAt s.data (s.pos + 26) 2))
        (window s.data (s.pos + 30 + (window s.data (s.pos + 30) (fieldAt s.data (s.pos + 26) 2)).length)
          (fieldAt s.data (s.pos + 28) 2)) := by
  have q1 : (LocalFileHeader.ofBytes (window s.data (s.pos + 4) 26)).fileNameLength.toNat = fieldAt s.data (s.pos + 26) 2 :=
    lhField hl (i := 22) (by omega)
  have q2 : (LocalFileHeader.ofBytes (window s.data (s.pos + 4) 26)).extraFieldLength.toNat
      = fieldAt s.data (s.pos + 28) 2 := lhField hl (i := 24) (by omega)
  obtain ⟨pos', hr, _⟩ := Runs.lfhAt (b := b) (data := s.data) (pos := s.pos) (hb := window s.data (s.pos + 4) 26)
    (by rw [show LFH_SIGNATURE = 0x04034b50 from rfl]; exact hs) rfl
    (by simp only [window, List.length_take, List.length_drop]; omega) rfl rfl
  rw [q1, q2] at hr
  exact (Runs.of_chunkIndep (lfh_chunkIndep b) hr s rfl rfl).imp id fun h => h.1

/-- Neither signature. -/
theorem lfh_unknown (b : Build) (s : RState) (hl : s.pos + 4 ≤ s.data.length) (h1 : ¬ OccursAt s.data sigLocal s.pos)
    (h2 : ¬ OccursAt s.data sigCentral s.pos) :
    Interrupted (lfh b s).1 ∨ ∃ v : UInt32, v.toNat = fieldAt s.data s.pos 4 ∧
      (lfh b s).1 = .error (.err (.unexpectedHeaderError v LFH_SIGNATURE)) := by
  have h4 : ((s.data.drop s.pos).take 4).length = 4 := by rw [List.length_take, List.length_drop]; omega
  have hr : Runs (lfh b) s.data s.pos
      (.error (.err (.unexpectedHeaderError (fromLe32 ((s.data.drop s.pos).take 4)) LFH_SIGNATURE))) (s.pos + 4) := by
    refine Runs.bind (Runs.readExact rfl h4) (Runs.ite_neg ?_ (Runs.ite_neg ?_ Runs.fail))
    · rw [fromLe32_eq_iff h4]
      exact fun h => h1 h
    · rw [fromLe32_eq_iff h4]
      exact fun h => h2 h
  refine (Runs.of_chunkIndep (lfh_chunkIndep b) hr s rfl rfl).imp id fun h => ⟨_, ?_, h.1⟩
  have := read32 (data := s.data) (pos := s.pos) rfl h4 0 (by omega)
  rw [Nat.add_zero, show slice ((s.data.drop s.pos).take 4) 0 (0 + 4) = (s.data.drop s.pos).take 4 by
    unfold slice; rw [List.drop_zero, List.take_take]; rfl] at this
  exact this

theorem streamNext_ok {b : Build} {s s' : RState} {x : Option Reading} (h : streamNext b s = (.ok x, s')) :
    ∃ e, lfh b s = (.ok e, s') ∧ x = e.map fun e => ⟨EntryReader.new e.compression
      (if e.dataDescriptor then 2 ^ 64 - 1 else e.compressedSize.toNat), e, e.dataDescriptor⟩ := by
  replace h := bind_ok_iff.1 h
  obtain ⟨e, s1, h1, h⟩ := h
  cases e with
  | none =>
    simp only [pure_def, Prod.mk.injEq, Except.ok.injEq] at h
    obtain ⟨rfl, rfl⟩ := h
    exact ⟨none, h1, rfl⟩
  | some e =>
    simp only [pure_def, Prod.mk.injEq, Except.ok.injEq] at h
    obtain ⟨rfl, rfl⟩ := h
    exact ⟨some e, h1, rfl⟩

theorem streamNext_err {b : Build} {s : RState} {e : Fail} (h : (lfh b s).1 = .error e) :
    (streamNext b s).1 = .error e := by
  cases hr : lfh b s with
  | mk r s1 =>
    rw [hr] at h
    simp only at h
    subst h
    unfold streamNext
    rw [bind_def, hr]

theorem descriptorSig : le32 DATA_DESCRIPTOR_SIGNATURE = sigDescriptor := by decide

theorem consumeDataDescriptor_ok {s s' : RState} (h : consumeDataDescriptor s = (.ok (), s')) :
    s'.data = s.data ∧ ((OccursAt s.data sigDescriptor s.pos ∧ s'.pos = s.pos + 16 ∧ s.pos + 16 ≤ s.data.length) ∨
      (¬ OccursAt s.data sigDescriptor s.pos ∧ s'.pos = s.pos + 12 ∧ s.pos + 12 ≤ s.data.length)) := by
  replace h := bind_ok_iff.1 h
  obtain ⟨d, s1, h1, h⟩ := h
  obtain ⟨a1, a2, a3, a4⟩ := readExact_ok h1
  have hd : slice d 0 SIGNATURE_LENGTH = (s.data.drop s.pos).take 4 := by
    rw [a1]
    unfold slice SIGNATURE_LENGTH
    rw [List.drop_zero, List.take_take]
    rfl
  have hlen1 : s.pos + 12 ≤ s.data.length := by
    have := congrArg List.length a1
    rw [List.length_take, List.length_drop, a2] at this
    simp only [DATA_DESCRIPTOR_LENGTH] at this
    omega
  split at h
  · rename_i hs
    replace h := bind_ok_iff.1 h
    obtain ⟨d2, s2, h2, h⟩ := h
    obtain ⟨b1, b2, b3, b4⟩ := readExact_ok h2
    simp only [pure_def, Prod.mk.injEq, true_and] at h
    subst h
    refine ⟨b3.trans a3, Or.inl ⟨?_, ?_, ?_⟩⟩
    · rw [hd, descriptorSig] at hs; exact hs
    · rw [b4, a4]; rfl
    · have := congrArg List.length b1
      rw [List.length_take, List.length_drop, b2, a3, a4] at this
      simp only [DATA_DESCRIPTOR_LENGTH, SIGNATURE_LENGTH] at this
      omega
  · rename_i hs
    simp only [pure_def, Prod.mk.injEq, true_and] at h
    subst h
    refine ⟨a3, Or.inr ⟨?_, ?_, hlen1⟩⟩
    · rw [hd, descriptorSig] at hs; exact hs
    · rw [a4]; rfl

/-- Enough data left: the descriptor is consumed. -/
theorem Runs.consumeDataDescriptor {data : Bytes} {pos : Nat}
    (h : pos + descriptorLength data pos ≤ data.length) :
    Runs consumeDataDescriptor data pos (.ok ())
      (pos + descriptorLength data pos) := by
  unfold descriptorLength at *
  have hl : pos + 12 ≤ data.length := by split at h <;> omega
  have h12 : ((data.drop pos).take 12).length = 12 := by rw [List.length_take, List.length_drop]; omega
  refine Runs.bind (pos1 := pos + 12) (Runs.readExact rfl h12) ?_
  have hd : slice ((data.drop pos).take 12) 0 SIGNATURE_LENGTH = (data.drop pos).take 4 := by
    unfold slice SIGNATURE_LENGTH
    rw [List.drop_zero, List.take_take]
    rfl
  rw [show DATA_DESCRIPTOR_LENGTH = 12 from rfl, hd, descriptorSig]
  by_cases ho : OccursAt data sigDescriptor pos
  · rw [if_pos ho] at h ⊢
    refine Runs.ite_pos ho (Runs.bind (pos1 := pos + 16) (Runs.readExact (pos := pos + 12) (n := 4) rfl ?_) Runs.pure)
    rw [List.length_take, List.length_drop]; omega
  · rw [if_neg ho]
    exact Runs.ite_neg ho Runs.pure

end AsyncZip
