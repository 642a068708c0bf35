import Verif.Spec.Openable
import Verif.Proofs.OpenSpec
import Verif.Proofs.OpenRuns
import Verif.Proofs.Stream
import Verif.Proofs.Access
import Verif.Props.Records
/-!
# Completeness of opening: what the bytes allow is accepted
-/

namespace AsyncZip
open Spec Rd

/-! ## Extra fields -/

theorem Represents.complete {f : ExtraField} {block : Nat × Bytes} (h : Represents f block) : CompleteField block := by
  obtain ⟨id, content⟩ := block
  intro hid
  cases f with
  | zip64 f =>
    have := h.1
    subst this
    rcases hid with h | h <;> simp at h
  | unicodeComment f =>
    cases f with
    | v1 crc s =>
      have := h.2
      subst this
      refine ⟨by simp, fun _ => ?_⟩
      simp [leBytes]
    | unknown v d =>
      obtain ⟨_, hv, hc⟩ := h
      subst hc
      exact ⟨by simp, fun h => absurd (by simpa using h) hv⟩
  | unicodePath f =>
    cases f with
    | v1 crc s =>
      have := h.2
      subst this
      refine ⟨by simp, fun _ => ?_⟩
      simp [leBytes]
    | unknown v d =>
      obtain ⟨_, hv, hc⟩ := h
      subst hc
      exact ⟨by simp, fun h => absurd (by simpa using h) hv⟩
  | unknown f =>
    obtain ⟨_, h1, h2, _⟩ := h
    exact absurd hid (by simp [h1, h2])

theorem GoodExtra.of_represents {x : Bytes} {fs : List ExtraField} {blocks : List (Nat × Bytes)} {tail : Bytes}
    (h : Blocks x blocks tail) (ht : tail.length ≤ 4) (hr : List.Forall₂ Represents fs blocks) : GoodExtra x := by
  refine ⟨blocks, tail, h, ht, ?_⟩
  clear h
  induction hr with
  | nil => simp
  | cons h1 _ ih =>
    intro block hb
    rcases List.mem_cons.1 hb with rfl | hb
    · exact Represents.complete h1
    · exact ih block hb

theorem infoZip_complete {err : ZipError} {sz : UInt16} {content : Bytes} (hn : sz.toNat = content.length)
    (h1 : content ≠ []) (h2 : content.head? = some 1 → 5 ≤ content.length) :
    ∃ f, infoZipFromBytes err sz content = .ok f := by
  unfold infoZipFromBytes
  cases content with
  | nil => exact absurd rfl h1
  | cons v d =>
    simp only
    by_cases hv : v = 1
    · subst hv
      have h5 := h2 rfl
      rw [if_pos rfl, if_neg (by omega), sliceChecked_full _ _ _ hn h5]
      exact ⟨_, rfl⟩
    · rw [if_neg hv, sliceChecked_full _ _ _ hn (by simp)]
      exact ⟨_, rfl⟩

theorem field_complete {id sz : UInt16} {content : Bytes} (us cs : UInt32) (hn : sz.toNat = content.length)
    (h : CompleteField (id.toNat, content)) : ∃ f, extraFieldFromBytes id sz content us cs = .ok f := by
  unfold extraFieldFromBytes
  split
  · exact ⟨_, rfl⟩
  · split
    · rename_i hid
      obtain ⟨h1, h2⟩ := h (Or.inl (by rw [hid]; rfl))
      obtain ⟨f, hf⟩ := infoZip_complete (err := .infoZipUnicodeCommentFieldIncomplete) hn h1 h2
      exact ⟨_, by rw [hf]; rfl⟩
    · split
      · rename_i hid
        obtain ⟨h1, h2⟩ := h (Or.inr (by rw [hid]; rfl))
        obtain ⟨f, hf⟩ := infoZip_complete (err := .infoZipUnicodePathFieldIncomplete) hn h1 h2
        exact ⟨_, by rw [hf]; rfl⟩
      · exact ⟨_, rfl⟩

theorem parse_complete (b : Build) (us cs : UInt32) {x : Bytes} {blocks : List (Nat × Bytes)} {tail : Bytes}
    (h : Blocks x blocks tail) (ht : tail.length ≤ 4) (hc : ∀ block ∈ blocks, CompleteField block) :
    ∃ fs, parseExtraLoop b us cs x = .ok fs := by
  induction h with
  | nil tail => exact ⟨_, parseExtraLoop_short b us cs tail ht⟩
  | cons x rs tail hlen hrest ih =>
    by_cases h4 : 4 < x.length
    · have hid := fromLe16_slice x 0 (by omega)
      have hsz := fromLe16_slice x 2 (by omega)
      simp only [Nat.zero_add, Nat.reduceAdd] at hid hsz
      have hslice : slice x 4 (4 + (fromLe16 (slice x 2 4)).toNat) = (x.drop 4).take (fieldAt x 2 2) := by
        rw [hsz, slice]; congr 1; omega
      obtain ⟨fs, hfs⟩ := ih ht fun block hb => hc block (List.mem_cons_of_mem _ hb)
      obtain ⟨f, hf⟩ := field_complete (id := fromLe16 (slice x 0 2)) (sz := fromLe16 (slice x 2 4))
        (content := (x.drop 4).take (fieldAt x 2 2)) us cs (by rw [hsz]; simp; omega)
        (by rw [hid]; exact hc _ List.mem_cons_self)
      unfold parseExtraLoop
      rw [dif_pos h4]
      simp only []
      rw [if_neg (by omega), hslice, hf]
      simp only [res_ok_bind]
      rw [hsz, hfs]
      exact ⟨_, rfl⟩
    · exact ⟨_, parseExtraLoop_short b us cs x (by omega)⟩

theorem GoodExtra.parse (b : Build) (us cs : UInt32) {x : Bytes} (h : GoodExtra x) :
    ∃ fs, parseExtraFields b x us cs = .ok fs := by
  obtain ⟨_, _, h1, h2, h3⟩ := h
  exact parse_complete b us cs h1 h2 h3

theorem GoodExtra.of_parse {b : Build} {us cs : UInt32} {x : Bytes} {fs : List ExtraField}
    (h : parseExtraFields b x us cs = .ok fs) :
    ∃ blocks tail, Blocks x blocks tail ∧ tail.length ≤ 4 ∧ List.Forall₂ Represents fs blocks := by
  rw [parseExtraFields] at h
  rcases parse_any b us cs x with ⟨fs', rs, tail, p1, p2, p3, p4⟩ | ⟨er, p1⟩ | ⟨p1, _⟩
  · rw [h] at p1
    cases p1
    exact ⟨rs, tail, p2, p3, p4⟩
  · rw [h] at p1; cases p1
  · rw [h] at p1; cases p1

/-- A known number is decoded. -/
theorem compression_known {v : UInt16} {c : Compression} (h : (c, v.toNat) ∈ methodTable) :
    Compression.tryFrom v = .ok c := by
  have hin : ∀ n : Nat, n < 65536 → v.toNat = n → v = UInt16.ofNat n := by
    intro n hn h
    apply UInt16.toNat_inj.1
    rw [h, UInt16.toNat_ofNat']
    omega
  simp only [methodTable, List.mem_cons, Prod.mk.injEq, List.not_mem_nil, or_false] at h
  rcases h with ⟨rfl, h⟩ | ⟨rfl, h⟩ | ⟨rfl, h⟩ | ⟨rfl, h⟩ | ⟨rfl, h⟩ | ⟨rfl, h⟩ | ⟨rfl, h⟩ <;>
    (rw [hin _ (by omega) h]; rfl)

/-! ## The directory -/

theorem RecordAt.good {data : Bytes} {off : Nat} {e : StoredZipEntry} (h : RecordAt data off e) : GoodRecord data off := by
  refine ⟨h.fits, h.signature, ⟨_, h.method⟩, ?_⟩
  obtain ⟨blocks, tail, h1, h2, h3⟩ := h.extra
  exact GoodExtra.of_represents h1 h2 h3

theorem Records.good {data : Bytes} {off : Nat} {es : List StoredZipEntry} (h : Records data off es) :
    GoodRecords data off es.length := by
  induction h with
  | nil off => exact .nil off
  | cons off e es h _ ih => exact .cons off _ (RecordAt.good h) ih

theorem GoodRecord.runs (b : Build) {data : Bytes} {off : Nat} (h : GoodRecord data off) :
    ∃ e pos', Runs (cdRecord b) data off (.ok e) pos' ∧
      (pos' = off + recordLength data off ∨ (data.length ≤ pos' ∧ data.length ≤ off + recordLength data off)) := by
  obtain ⟨hfit, hsig, ⟨c, hm⟩, hx⟩ := h
  have hb : ((data.drop (off + 4)).take 42).length = 42 := by rw [List.length_take, List.length_drop]; omega
  generalize hhb : (data.drop (off + 4)).take 42 = hd at hb
  have r16 := fun i h => read16 (data := data) (pos := off + 4) hhb.symm hb i h
  have hn : (CentralDirectoryRecord.ofBytes hd).fileNameLength.toNat = fieldAt data (off + 28) 2 := r16 24 (by omega)
  have hxl : (CentralDirectoryRecord.ofBytes hd).extraFieldLength.toNat = fieldAt data (off + 30) 2 := r16 26 (by omega)
  have hcl : (CentralDirectoryRecord.ofBytes hd).fileCommentLength.toNat = fieldAt data (off + 32) 2 := r16 28 (by omega)
  have hmm : Compression.tryFrom (CentralDirectoryRecord.ofBytes hd).compression = .ok c := by
    apply compression_known
    rw [show (CentralDirectoryRecord.ofBytes hd).compression.toNat = fieldAt data (off + 10) 2 from r16 6 (by omega)]
    exact hm
  obtain ⟨fs, hfs⟩ := GoodExtra.parse b (CentralDirectoryRecord.ofBytes hd).uncompressedSize
    (CentralDirectoryRecord.ofBytes hd).compressedSize hx
  have w1 := window_step (data := data) (p := off + 4 + 42) (q := off + 46) (n := fieldAt data (off + 28) 2)
    (Or.inl (by omega))
  have w2 := window_step (n := fieldAt data (off + 30) 2) w1.2
  have w3 := window_step (n := fieldAt data (off + 32) 2) w2.2
  have hrec : off + recordLength data off =
      off + 46 + fieldAt data (off + 28) 2 + fieldAt data (off + 30) 2 + fieldAt data (off + 32) 2 := by
    rw [recordLength]; omega
  rw [hrec]
  refine ⟨cdEntryOf (CentralDirectoryRecord.ofBytes hd) (window data (off + 46) (fieldAt data (off + 28) 2)) c fs
    (window data (off + 46 + fieldAt data (off + 28) 2 + fieldAt data (off + 30) 2) (fieldAt data (off + 32) 2)), _, ?_, w3.2⟩
  unfold cdRecord
  refine Runs.bind (a := ()) (pos1 := off + 4) ?_ ?_
  · apply Runs.assertSignature (rest := data.drop (off + 4))
    unfold OccursAt at hsig
    rw [show le32 CDH_SIGNATURE = sigCentral by decide, ← hsig, ← List.drop_drop]
    exact (List.take_append_drop _ _).symm
  refine Runs.bind (a := CentralDirectoryRecord.ofBytes hd) (pos1 := off + 4 + 42)
    (Runs.bind (Runs.readExact hhb hb) Runs.pure) ?_
  simp only []
  rw [hn, hxl, hcl]
  refine Runs.bind (Runs.readBytes rfl) ?_
  refine Runs.bind (Runs.liftOk hmm) ?_
  refine Runs.bind (Runs.readBytes rfl) ?_
  refine Runs.bind (Runs.liftOk (a := fs) ?_) ?_
  · rw [w2.1]; exact hfs
  refine Runs.bind (Runs.readBytes rfl) ?_
  rw [w3.1, w1.1, cdEntryOf, hn, hxl]
  exact Runs.pure

theorem GoodRecords.runs (b : Build) {data : Bytes} {off n : Nat} (h : GoodRecords data off n) :
    ∃ es pos', Runs (cdLoop b n) data off (.ok es) pos' := by
  induction h with
  | nil off => exact ⟨_, _, Runs.pure⟩
  | cons off n h hs ih =>
    obtain ⟨e, p, hr, hp⟩ := GoodRecord.runs b h
    rcases hp with rfl | ⟨hp, hp'⟩
    · obtain ⟨es, pos', h'⟩ := ih
      exact ⟨_, _, Runs.cdLoop_cons hr h'⟩
    · cases hs with
      | nil => exact ⟨_, _, Runs.cdLoop_cons hr Runs.pure⟩
      | cons _ _ h' _ =>
        have := h'.fits
        omega

/-! ## The end records -/

theorem Runs.readCombined_complete (b : Build) {data : Bytes} {j : Nat} (hj : j + 22 ≤ data.length)
    (hz : HasLocator data j → zip64End data j + 56 ≤ data.length)
    (hfit : HasLocator data j → zip64End data j + 4 < 2 ^ 64) (eo : EndOfCentralDirectoryHeader) :
    ∃ rec z, ∀ p, ∃ p', Runs (readCombined b (j + 4) eo) data p (.ok (rec, z)) p' := by
  by_cases h20 : j < 20
  · exact ⟨_, _, fun p => ⟨_, Runs.readCombined_near h20⟩⟩
  · by_cases hl : HasLocator data j
    · have hb : ((data.drop (j - 20 + 4)).take 16).length = 16 := by rw [List.length_take, List.length_drop]; omega
      have hrel : (Zip64EndOfCentralDirectoryLocator.ofBytes ((data.drop (j - 20 + 4)).take 16)).relativeOffset.toNat =
          zip64End data j := by
        have := read64 (data := data) (pos := j - 20 + 4) rfl hb 4 (by omega)
        rw [show j - 20 + 4 + 4 = j - 20 + 8 by omega] at this
        exact this
      have hz' := hz hl
      refine ⟨CombinedRecord.combine eo
          (Zip64EndOfCentralDirectoryRecord.ofBytes ((data.drop (zip64End data j + 4)).take 52)), true,
        fun p => ⟨zip64End data j + 4 + 52, ?_⟩⟩
      unfold readCombined
      refine Runs.ite_neg (by simp only [ZIP64_EOCDL_LENGTH, SIGNATURE_LENGTH]; omega) ?_
      refine Runs.bind Runs.seekStart ?_
      rw [show j + 4 - (ZIP64_EOCDL_LENGTH + SIGNATURE_LENGTH) = j - 20 by
        simp only [ZIP64_EOCDL_LENGTH, SIGNATURE_LENGTH]; omega]
      refine Runs.bind (a := some (Zip64EndOfCentralDirectoryLocator.ofBytes ((data.drop (j - 20 + 4)).take 16)))
        (pos1 := j - 20 + 4 + 16) ?_ ?_
      · unfold Zip64EndOfCentralDirectoryLocator.tryFromReader
        refine Runs.bind (Runs.readExact (n := 4) (b := sigLocator) hl.2 rfl) ?_
        refine Runs.ite_neg (by decide) ?_
        exact Runs.bind (Runs.readExact rfl hb) Runs.pure
      · simp only []
        refine Runs.bind (Runs.liftOk (a := zip64End data j + 4) ?_) ?_
        · rw [hrel, addU64, if_pos (by exact hfit hl)]; rfl
        refine Runs.bind Runs.seekStart ?_
        refine Runs.bind (Runs.bind (Runs.readExact rfl ?_) Runs.pure) Runs.pure
        rw [List.length_take, List.length_drop]; omega
    · refine ⟨_, _, fun p => ⟨_, Runs.readCombined_plain (by omega) rfl ?_ ?_⟩⟩
      · rw [List.length_take, List.length_drop]; omega
      · intro he
        apply hl
        refine ⟨by omega, ?_⟩
        unfold OccursAt
        rw [show sigLocator.length = 4 from rfl, he]
        decide

/-- What the bytes allow is opened. -/
theorem Openable.runs {b : Build} {data : Bytes} {j : Nat} (h : Openable b.maxVecEntries data j)
    (hfit : HasLocator data j → zip64End data j + 4 < 2 ^ 64) (pos : Nat) :
    ∃ f pos', Runs (openFile b) data pos (.ok f) pos' := by
  have hb : ((data.drop (j + 4)).take 18).length = 18 := by
    have := h.complete
    rw [List.length_take, List.length_drop]; omega
  obtain ⟨rec, z, hr⟩ := Runs.readCombined_complete b h.complete h.zip64 hfit
    (EndOfCentralDirectoryHeader.ofBytes ((data.drop (j + 4)).take 18))
  obtain ⟨p', h0⟩ := hr 0
  obtain ⟨l, h0⟩ := h0 []
  obtain ⟨_, g2, g3, g4, g5, g6, g7⟩ := readCombined_ok h0 hfit h.complete rfl
  simp only at g2 g3 g4 g5 g6 g7
  obtain ⟨es, pos', hes⟩ := GoodRecords.runs b h.records
  rw [← g6, ← g7] at hes
  refine ⟨_, pos', Runs.openFile (eo := EndOfCentralDirectoryHeader.ofBytes ((data.drop (j + 4)).take 18)) h.last.1 h.last.2
    h.near (C01_end_of_central_directory_converse _ hb).symm rfl hr ?_ ?_ (Runs.cd (by rw [g6]; exact h.count) hes)⟩
  · apply UInt32.toNat_inj.1
    rw [g3, g4, h.disks]
  · apply UInt64.toNat_inj.1
    rw [g6, g5, h.whole]

theorem readCombined_fits {b : Build} {j : Nat} {e : EndOfCentralDirectoryHeader} {s s' : RState} {r : CombinedRecord × Bool}
    (h : readCombined b (j + 4) e s = (.ok r, s')) (hl : HasLocator s.data j) (hfit : zip64End s.data j + 4 < 2 ^ 64) :
    zip64End s.data j + 56 ≤ s.data.length := by
  unfold readCombined at h
  have h20 := hl.1
  rw [if_neg (by simp only [ZIP64_EOCDL_LENGTH, SIGNATURE_LENGTH]; omega)] at h
  replace h := bind_ok_iff.1 h
  obtain ⟨_, s1, h1, h⟩ := h
  obtain ⟨_, a2, a3⟩ := seekTo_ok h1
  rw [show j + 4 - (ZIP64_EOCDL_LENGTH + SIGNATURE_LENGTH) = j - 20 by
    simp only [ZIP64_EOCDL_LENGTH, SIGNATURE_LENGTH]; omega] at a3
  replace h := bind_ok_iff.1 h
  obtain ⟨l, s2, h2, h⟩ := h
  unfold Zip64EndOfCentralDirectoryLocator.tryFromReader at h2
  replace h2 := bind_ok_iff.1 h2
  obtain ⟨sg, s3, h3, h2⟩ := h2
  obtain ⟨b1, b2, b3, b4⟩ := readExact_ok h3
  have hsg : sg = sigLocator := by rw [b1, a2, a3]; exact hl.2
  rw [if_neg (by rw [hsg]; decide)] at h2
  replace h2 := bind_ok_iff.1 h2
  obtain ⟨lb, s4, h4, h2⟩ := h2
  obtain ⟨c1, c2, c3, c4⟩ := readExact_ok h4
  rw [b3, b4, a2, a3] at c1
  simp only [pure_def, Prod.mk.injEq, Except.ok.injEq] at h2
  obtain ⟨rfl, rfl⟩ := h2
  simp only at h
  replace h := bind_ok_iff.1 h
  obtain ⟨tgt, s5, h5, h⟩ := h
  obtain ⟨d1, rfl⟩ := lift_ok h5
  have hrel : (Zip64EndOfCentralDirectoryLocator.ofBytes lb).relativeOffset.toNat = zip64End s.data j := by
    have := read64 (data := s.data) c1 c2 4 (by omega)
    rw [show j - 20 + 4 + 4 = j - 20 + 8 by omega] at this
    exact this
  rw [hrel, addU64, if_pos (by exact hfit)] at d1
  simp only [Except.ok.injEq] at d1
  replace h := bind_ok_iff.1 h
  obtain ⟨_, s6, h6, h⟩ := h
  obtain ⟨_, f2, f3⟩ := seekTo_ok h6
  replace h := bind_ok_iff.1 h
  obtain ⟨zr, s7, h7, h⟩ := h
  replace h7 := bind_ok_iff.1 h7
  obtain ⟨zb, s8, h8, h7⟩ := h7
  obtain ⟨g1, g2, g3, g4⟩ := readExact_ok h8
  rw [f2, f3, c3, b3, a2, ← d1] at g1
  have := congrArg List.length g1
  rw [List.length_take, List.length_drop, g2] at this
  simp only [SIGNATURE_LENGTH] at this
  clear hfit d1 hrel
  generalize zip64End s.data j = z at *
  omega

/-- What is opened is as the bytes must be. -/
theorem Openable.of_ok {b : Build} {s s' : RState} {f : ZipFile} (h : openFile b s = (.ok f, s'))
    (hfit : ∀ j, LastEnd s.data j → HasLocator s.data j → zip64End s.data j + 4 < 2 ^ 64) :
    ∃ j, Openable b.maxVecEntries s.data j := by
  obtain ⟨j, hj, hc, hdisk, hnum, hlen, _, hrec, _⟩ := openFile_ok h hfit
  unfold openFile at h
  replace h := bind_ok_iff.1 h
  obtain ⟨off, s1, h1, h⟩ := h
  have k1 := (locateEocdr_keeps s).1
  rw [h1] at k1
  simp only at k1
  rcases locateEocdr_reach s s1 _ h1 with ⟨j', hr, ho, hl, hn⟩ | ⟨hr, _⟩ | hi
  · have : j' = j := Nat.le_antisymm (hj.2 j' ho) (hl j hj.1)
    subst this
    simp only [Except.ok.injEq] at hr
    subst hr
    replace h := bind_ok_iff.1 h
    obtain ⟨_, s2, h2, h⟩ := h
    obtain ⟨_, a2, a3⟩ := seekTo_ok h2
    replace h := bind_ok_iff.1 h
    obtain ⟨eo, s3, h3, h⟩ := h
    replace h3 := bind_ok_iff.1 h3
    obtain ⟨eb, s4, h4, h3⟩ := h3
    obtain ⟨b1, b2, b3, b4⟩ := readExact_ok h4
    simp only [pure_def, Prod.mk.injEq, Except.ok.injEq] at h3
    obtain ⟨rfl, rfl⟩ := h3
    replace h := bind_ok_iff.1 h
    obtain ⟨cm, s5, h5, h⟩ := h
    replace h5 := bind_ok_iff.1 h5
    obtain ⟨cb, s6, h6, h5⟩ := h5
    obtain ⟨c1, c2, c3⟩ := readBytes_ok h6
    simp only [pure_def, Prod.mk.injEq, Except.ok.injEq] at h5
    obtain ⟨rfl, rfl⟩ := h5
    have hd6 : s6.data = s.data := by rw [c2, b3, a2, k1]
    replace h := bind_ok_iff.1 h
    obtain ⟨⟨r, z⟩, s7, h7, h⟩ := h
    refine ⟨j', hj, hn, hc, fun hl => ?_, hdisk, hnum, ?_, ?_⟩
    · have := readCombined_fits h7 (by rw [hd6]; exact hl) (by rw [hd6]; exact hfit j' hj hl)
      rw [hd6] at this
      exact this
    · simp only at h
      split at h
      · simp at h
      · obtain ⟨_, s8, h8, h⟩ := bind_ok_iff.1 h
        replace h := bind_ok_iff.1 h
        obtain ⟨es, s9, h9, h⟩ := h
        simp only [pure_def, Prod.mk.injEq, Except.ok.injEq] at h
        obtain ⟨rfl, rfl⟩ := h
        unfold cd at h9
        split at h9
        · simp at h9
        · rename_i hle
          rw [← hlen, (cdLoop_ok _ h9).1]
          omega
    · rw [← hlen]
      exact Records.good hrec
  · cases hr
  · exact absurd hi not_interrupted_ok

/-! ## Local headers -/

theorem lhField32 {data : Bytes} {pos i : Nat} (h : pos + 30 ≤ data.length) (hi : i + 4 ≤ 26) :
    (fromLe32 (slice (window data (pos + 4) 26) i (i + 4))).toNat = fieldAt data (pos + 4 + i) 4 :=
  read32 (data := data) (pos := pos + 4) (n := 26) rfl (by rw [List.length_take, List.length_drop]; omega) i hi

/-- The flags of the local header at `pos`. -/
theorem lhFlags {data : Bytes} {pos : Nat} (h : pos + 30 ≤ data.length) :
    (LocalFileHeader.ofBytes (window data (pos + 4) 26)).flags =
      ⟨(fieldAt data (pos + 6) 2).testBit 0, (fieldAt data (pos + 6) 2).testBit 3, (fieldAt data (pos + 6) 2).testBit 11⟩ := by
  rw [show (LocalFileHeader.ofBytes (window data (pos + 4) 26)).flags
      = GeneralPurposeFlag.ofU16 (fromLe16 (slice (window data (pos + 4) 26) 2 (2 + 2))) from rfl, flags_ofU16,
      lhField h (by omega)]

/-- What is read as the extra field of a local header, when the name may be cut short. -/
theorem lhExtra (data : Bytes) (pos : Nat) :
    window data (pos + 30 + (window data (pos + 30) (fieldAt data (pos + 26) 2)).length) (fieldAt data (pos + 28) 2) =
      window data (pos + 30 + fieldAt data (pos + 26) 2) (fieldAt data (pos + 28) 2) := by
  have w1 := window_step (data := data) (p := pos + 30) (q := pos + 30) (n := fieldAt data (pos + 26) 2) (Or.inl rfl)
  exact (window_step (n := fieldAt data (pos + 28) 2) w1.2).1

theorem HeaderAt.of_entry {data : Bytes} {pos : Nat} {b : Build} {c : Compression} {fs : List ExtraField}
    (hl : pos + 30 ≤ data.length)
    (hc : Compression.tryFrom (LocalFileHeader.ofBytes (window data (pos + 4) 26)).compression = .ok c)
    (hf : parseExtraFields b (window data (pos + 30 + fieldAt data (pos + 26) 2) (fieldAt data (pos + 28) 2))
      (LocalFileHeader.ofBytes (window data (pos + 4) 26)).uncompressedSize
      (LocalFileHeader.ofBytes (window data (pos + 4) 26)).compressedSize = .ok fs) :
    HeaderAt data pos (lfhEntryOf (LocalFileHeader.ofBytes (window data (pos + 4) 26))
      (window data (pos + 30) (fieldAt data (pos + 26) 2)) c fs) := by
  have q1 : (LocalFileHeader.ofBytes (window data (pos + 4) 26)).compressedSize.toNat = fieldAt data (pos + 18) 4 :=
    lhField32 hl (i := 14) (by omega)
  have q2 : (LocalFileHeader.ofBytes (window data (pos + 4) 26)).uncompressedSize.toNat = fieldAt data (pos + 22) 4 :=
    lhField32 hl (i := 18) (by omega)
  constructor
  · have := compression_ok hc
    rw [show (LocalFileHeader.ofBytes (window data (pos + 4) 26)).compression.toNat = fieldAt data (pos + 8) 2 from
      lhField hl (i := 4) (by omega)] at this
    exact this
  · show (LocalFileHeader.ofBytes (window data (pos + 4) 26)).flags.dataDescriptor = _
    rw [lhFlags hl]
  · exact lhField hl (i := 6) (by omega)
  · exact lhField hl (i := 8) (by omega)
  · exact lhField32 hl (i := 10) (by omega)
  · exact ⟨rfl, rfl⟩
  · exact basic_filename _ _ _
  · rfl
  · exact GoodExtra.of_parse hf
  · intro hz
    simp only [lfhEntryOf] at hz ⊢
    simp only [getZip64_none hz, getCombinedSizes, UInt32.toNat_toUInt64]
    exact ⟨q1, q2⟩
  · intro pre f post hz hpre
    simp only [lfhEntryOf] at hz ⊢
    simp only [hz, getZip64_first hpre, getCombinedSizes]
    refine ⟨?_, ?_⟩
    · rw [← q1]
      cases f.compressedSize
      · exact UInt32.toNat_toUInt64 _
      · rfl
    · rw [← q2]
      cases f.uncompressedSize
      · exact UInt32.toNat_toUInt64 _
      · rfl
  · rw [parseExtraFields] at hf
    obtain ⟨bl, tail, p1, p2, p3⟩ := parse_content hf
    obtain ⟨v1, v2, _⟩ := values_of_content (LocalFileHeader.ofBytes (window data (pos + 4) 26)).uncompressedSize
      (LocalFileHeader.ofBytes (window data (pos + 4) 26)).compressedSize 0 (bl.find? fun p => p.1 == 1)
    rw [← p3] at v1 v2
    rw [q1, q2] at v2
    rw [q2] at v1
    exact ⟨bl, tail, p1, p2, v1, v2⟩

theorem GoodHeader.outcome (b : Build) {data : Bytes} {pos : Nat} (h : GoodHeader data pos) :
    ∃ e, lfhOutcome b (LocalFileHeader.ofBytes (window data (pos + 4) 26))
      (window data (pos + 30) (fieldAt data (pos + 26) 2))
      (window data (pos + 30 + (window data (pos + 30) (fieldAt data (pos + 26) 2)).length) (fieldAt data (pos + 28) 2)) =
        .ok (some e) := by
  obtain ⟨hl, hsig, hp, ⟨c, hm⟩, hb, hx⟩ := h
  have hv : (LocalFileHeader.ofBytes (window data (pos + 4) 26)).compression.toNat = fieldAt data (pos + 8) 2 :=
    lhField hl (i := 4) (by omega)
  obtain ⟨fs, hfs⟩ := GoodExtra.parse b (LocalFileHeader.ofBytes (window data (pos + 4) 26)).uncompressedSize
    (LocalFileHeader.ofBytes (window data (pos + 4) 26)).compressedSize hx
  rw [lhExtra]
  unfold lfhOutcome
  rw [compression_known (hv ▸ hm), hfs, lhFlags hl, hp]
  simp only [res_ok_bind]
  rw [if_neg, if_neg (by simp)]
  · exact ⟨_, rfl⟩
  · intro hh
    apply hb
    rw [Bool.and_eq_true, beq_iff_eq] at hh
    refine ⟨hh.1, ?_⟩
    rw [hh.2] at hm
    simpa [methodTable] using hm

theorem GoodHeader.of_ok {b : Build} {s s' : RState} {r : Reading} (h : streamNext b s = (.ok (some r), s')) :
    GoodHeader s.data s.pos ∧ HeaderAt s.data s.pos r.entry ∧
      r.reader = EntryReader.new r.entry.compression (if r.entry.dataDescriptor then 2 ^ 64 - 1 else r.entry.compressedSize.toNat) ∧
      r.dataDescriptor = r.entry.dataDescriptor := by
  obtain ⟨e, h1, h2⟩ := streamNext_ok h
  obtain ⟨_, ⟨g1, _⟩ | ⟨g1, g2, g3, _⟩⟩ := lfh_ok h1
  · subst g1; cases h2
  · obtain ⟨c, fs, k1, k2, k3, k4, rfl⟩ := lfhOutcome_ok g3
    rw [lhExtra] at k2
    cases h2
    have hat := HeaderAt.of_entry g2 k1 k2
    rw [lhFlags g2] at k3 k4
    obtain ⟨blocks, tail, x1, x2, x3⟩ := hat.extra
    refine ⟨⟨g2, g1, k4, ⟨_, hat.method⟩, ?_, GoodExtra.of_represents x1 x2 x3⟩, hat, rfl, rfl⟩
    rintro ⟨hd, h0⟩
    apply k3
    refine ⟨hd, ?_⟩
    have hm : (c, fieldAt s.data (s.pos + 8) 2) ∈ methodTable := hat.method
    rw [h0] at hm
    simpa [methodTable] using hm

theorem GoodHeader.next (b : Build) {s : RState} (h : GoodHeader s.data s.pos) :
    Interrupted (streamNext b s).1 ∨ ∃ r, (streamNext b s).1 = .ok (some r) := by
  obtain ⟨e, he⟩ := GoodHeader.outcome b h
  rcases lfh_at b s h.signature h.fits with (h | ⟨c, h⟩) | h
  · exact Or.inl (Or.inl (streamNext_err h))
  · exact Or.inl (Or.inr ⟨c, streamNext_err h⟩)
  · rw [he] at h
    refine Or.inr ⟨⟨EntryReader.new e.compression (if e.dataDescriptor then 2 ^ 64 - 1 else e.compressedSize.toNat), e,
      e.dataDescriptor⟩, ?_⟩
    unfold streamNext
    have h' : lfh b s = (.ok (some e), (lfh b s).2) := by rw [← h]
    rw [bind_of_ok h']
    simp only [pure_def]

theorem Runs.streamNext_end (b : Build) {data : Bytes} {pos : Nat} (h : OccursAt data sigCentral pos) :
    Runs (streamNext b) data pos (.ok none) (pos + 4) := by
  have : Runs (lfh b) data pos (.ok none) (pos + 4) :=
    Runs.bind (Runs.readExact (n := 4) (b := sigCentral) h rfl) (Runs.ite_neg (by decide)
      (Runs.ite_pos (by decide) Runs.pure))
  exact Runs.bind this Runs.pure

/-! ## Getting at an entry -/

theorem Runs.seekToDataOffset {data : Bytes} {e : StoredZipEntry} {pos : Nat} (hs : OccursAt data sigLocal e.fileOffset)
    (hl : e.fileOffset + 30 ≤ data.length) : ∃ pos', Runs (seekToDataOffset e) data pos (.ok ()) pos' := by
  unfold AsyncZip.seekToDataOffset
  refine ⟨_, Runs.bind Runs.seekStart (Runs.bind (Runs.readExact (n := 4) (b := sigLocal) hs rfl)
    (Runs.ite_pos (by decide) (Runs.bind (Runs.bind (Runs.readExact rfl ?_) Runs.pure)
      (Runs.bind Runs.seekForward Runs.pure))))⟩
  rw [List.length_take, List.length_drop]
  omega

end AsyncZip
