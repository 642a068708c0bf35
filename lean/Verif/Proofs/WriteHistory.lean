import Verif.Proofs.WriteFacts
/-!
# Every listed entry is described by its directory record and present in the output
-/

namespace AsyncZip
open Wr Spec

/-- How a directory record and its extra fields carry sizes and offset; `e` is the entry the caller passed. -/
inductive Carries (force streamed : Bool) (e : ZipEntry) (us cs : UInt64) (off : Nat) :
    CentralDirectoryRecord → List ExtraField → Prop where
  | plain {h : CentralDirectoryRecord} (hs : streamed = true → force = true) (hu : us ≤ 0xFFFFFFFF)
      (hc : cs ≤ 0xFFFFFFFF) (ho : off ≤ 0xFFFFFFFF)
      (h1 : h.uncompressedSize = us.toUInt32) (h2 : h.compressedSize = cs.toUInt32) (h3 : h.lhOffset = UInt32.ofNat off) :
      Carries force streamed e us cs off h (withUnicode e e.extraFields)
  | big {h : CentralDirectoryRecord} (hs : streamed = false) (hb : us > 0xFFFFFFFF ∨ cs > 0xFFFFFFFF)
      (h1 : h.uncompressedSize = 0xFFFFFFFF) (h2 : h.compressedSize = 0xFFFFFFFF)
      (h3 : h.lhOffset = UInt32.ofNat (if off ≤ 0xFFFFFFFF then off else 0xFFFFFFFF)) :
      Carries force streamed e us cs off h (withUnicode e (e.extraFields ++ [zip64Of (some us) (some cs) (farField off)]))
  | far {h : CentralDirectoryRecord} (hs : streamed = false) (hu : us ≤ 0xFFFFFFFF) (hc : cs ≤ 0xFFFFFFFF)
      (ho : ¬ off ≤ 0xFFFFFFFF)
      (h1 : h.uncompressedSize = us.toUInt32) (h2 : h.compressedSize = cs.toUInt32) (h3 : h.lhOffset = 0xFFFFFFFF) :
      Carries force streamed e us cs off h (withUnicode e e.extraFields ++ [zip64Of none none (some (UInt64.ofNat off))])
  | stream {h : CentralDirectoryRecord} (hf : force = false) (hs : streamed = true)
      (h1 : h.uncompressedSize = 0xFFFFFFFF) (h2 : h.compressedSize = 0xFFFFFFFF) (h3 : h.lhOffset = 0xFFFFFFFF) :
      Carries force streamed e us cs off h (putZip64Sizes us cs (UInt64.ofNat off) (streamEntry false e).extraFields)

/-- The directory record `c` describes the entry `l` whose local header is at `off`. -/
structure Describes (force : Bool) (off : Nat) (l : Listing) (c : CdEntry) : Prop where
  filename : c.entry.filename = l.entry.filename
  comment : c.entry.comment = l.entry.comment
  nameLen : c.header.fileNameLength.toNat = l.entry.filename.basic.length
  commentLen : c.header.fileCommentLength.toNat = l.entry.comment.basic.length
  extraLen : c.header.extraFieldLength.toNat = extraCountBytes c.entry.extraFields
  madeBy : c.header.vMadeBy = asMadeBy
  needed : c.header.vNeeded = asNeededToExtract l.entry
  flags : c.header.flags = { encrypted := false, dataDescriptor := l.streamed, filenameUnicode := bothUtf8 l.entry }
  method : c.header.compression = l.entry.compression.toU16
  time : c.header.modTime = l.entry.lastModificationDate.time
  date : c.header.modDate = l.entry.lastModificationDate.date
  crc : c.header.crc = l.crc
  disk : c.header.diskStart = 0
  inter : c.header.interAttr = l.entry.internalFileAttribute
  exter : c.header.exterAttr = l.entry.externalFileAttribute
  carries : Carries force l.streamed l.entry (l.recorded force).1 (l.recorded force).2 off c.header c.entry.extraFields

/-- What the local header says, for a whole or a streamed entry. -/
structure LocalHeader (force : Bool) (l : Listing) (c : CdEntry) (h : LocalFileHeader) (fs : List ExtraField) : Prop where
  nameLen : h.fileNameLength.toNat = l.entry.filename.basic.length
  extraLen : h.extraFieldLength.toNat = extraCountBytes fs
  version : h.version = c.header.vNeeded
  flags : h.flags = c.header.flags
  method : h.compression = c.header.compression
  time : h.modTime = c.header.modTime
  date : h.modDate = c.header.modDate
  whole : l.streamed = false → h.crc = l.crc ∧
    ((l.us ≤ 0xFFFFFFFF ∧ l.cs ≤ 0xFFFFFFFF ∧ h.uncompressedSize = l.us.toUInt32 ∧ h.compressedSize = l.cs.toUInt32 ∧
        fs = withUnicode l.entry l.entry.extraFields) ∨
     (∃ o, (l.us > 0xFFFFFFFF ∨ l.cs > 0xFFFFFFFF) ∧ h.uncompressedSize = 0xFFFFFFFF ∧ h.compressedSize = 0xFFFFFFFF ∧
        c.entry.extraFields = fs ∧ fs = withUnicode l.entry (l.entry.extraFields ++ [zip64Of (some l.us) (some l.cs) o])))
  stream : l.streamed = true → h.crc = l.entry.crc32 ∧ (h.compressedSize, h.uncompressedSize) = streamHeaderSizes force l.entry ∧
    fs = (streamEntry force l.entry).extraFields

/-- The descriptor after the data: with `force_no_zip64` the sizes in their fields (exchanged), else placeholders. -/
def tailBytes (force : Bool) (l : Listing) : Bytes :=
  if l.streamed then
    if force then descriptorBytes l.crc l.us.toUInt32 l.cs.toUInt32
    else descriptorBytes l.crc NON_ZIP64_MAX_SIZE NON_ZIP64_MAX_SIZE
  else []

/-- `x` is the entry's part of the output: local header, data, descriptor. -/
def LocalRec (force : Bool) (x : Bytes) (l : Listing) (c : CdEntry) : Prop :=
  ∃ h fs extra, LocalHeader force l c h fs ∧ extraAsBytes fs = .ok extra ∧
    x = localBytes h l.entry.filename.basic extra (l.stored ++ tailBytes force l)

theorem toUInt32_ofNat (n : Nat) : (UInt64.ofNat n).toUInt32 = UInt32.ofNat n := by
  apply UInt32.toNat_inj.1
  simp only [UInt64.toNat_toUInt32, UInt64.toNat_ofNat', UInt32.toNat_ofNat']
  omega

theorem tryU16_ok {n : Nat} {e : ZipError} {x : UInt16} (h : tryU16 n e = .ok x) : x.toNat = n := by
  unfold tryU16 at h
  split at h
  · simp only [Except.ok.injEq] at h
    rw [← h, UInt16.toNat_ofNat']
    omega
  · cases h

theorem wholeLfh_ok {e : ZipEntry} {u : Bool} {h : LocalFileHeader} (hl : wholeLfh e u = .ok h) :
    h.fileNameLength.toNat = e.filename.basic.length ∧ h.extraFieldLength.toNat = extraCountBytes e.extraFields ∧
    h.version = asNeededToExtract e ∧ h.flags = { encrypted := false, dataDescriptor := false, filenameUnicode := u } ∧
    h.compression = e.compression.toU16 ∧ h.modTime = e.lastModificationDate.time ∧ h.modDate = e.lastModificationDate.date ∧
    h.crc = e.crc32 ∧ h.uncompressedSize = e.uncompressedSize.toUInt32 ∧ h.compressedSize = e.compressedSize.toUInt32 := by
  unfold wholeLfh at hl
  obtain ⟨a, h1, hl⟩ := bind_ok hl
  obtain ⟨b, h2, hl⟩ := bind_ok hl
  simp only [res_pure, Except.ok.injEq] at hl
  subst hl
  exact ⟨tryU16_ok h2, tryU16_ok h1, rfl, rfl, rfl, rfl, rfl, rfl, rfl, rfl⟩

theorem streamLfh_ok {e : ZipEntry} {u : Bool} {a b : UInt32} {h : LocalFileHeader} (hl : streamLfh e u a b = .ok h) :
    h.fileNameLength.toNat = e.filename.basic.length ∧ h.extraFieldLength.toNat = extraCountBytes e.extraFields ∧
    h.version = asNeededToExtract e ∧ h.flags = { encrypted := false, dataDescriptor := true, filenameUnicode := u } ∧
    h.compression = e.compression.toU16 ∧ h.modTime = e.lastModificationDate.time ∧ h.modDate = e.lastModificationDate.date ∧
    h.crc = e.crc32 ∧ h.uncompressedSize = b ∧ h.compressedSize = a := by
  unfold streamLfh at hl
  obtain ⟨a, h1, hl⟩ := bind_ok hl
  obtain ⟨b, h2, hl⟩ := bind_ok hl
  simp only [res_pure, Except.ok.injEq] at hl
  subst hl
  exact ⟨tryU16_ok h2, tryU16_ok h1, rfl, rfl, rfl, rfl, rfl, rfl, rfl, rfl⟩

/-- What measuring makes of an entry. -/
theorem wholeMeasure_ok {C : Codec} {e em : ZipEntry} {data d : Bytes} {pre : Bool}
    (h : wholeMeasure C e data pre = .ok (em, d)) :
    ∃ l : Listing, l.entry = e ∧ l.streamed = false ∧ l.stored = d ∧
      em = { e with crc32 := l.crc, uncompressedSize := l.us, compressedSize := l.cs } ∧
      (pre = true → l.crc = e.crc32 ∧ l.us = e.uncompressedSize ∧ d = data) ∧
      (pre = false → l.crc = crc32 data ∧ l.us = UInt64.ofNat data.length ∧
        StoredAs C e.compression e.compressionLevel data d) := by
  unfold wholeMeasure at h
  split at h
  · rename_i hp
    simp only [Except.ok.injEq, Prod.mk.injEq] at h
    obtain ⟨rfl, rfl⟩ := h
    exact ⟨⟨e, false, e.crc32, e.uncompressedSize, data⟩, rfl, rfl, rfl, rfl, fun _ => ⟨rfl, rfl, rfl⟩,
      fun h => by rw [hp] at h; cases h⟩
  · rename_i hp
    obtain ⟨st, h1, h2⟩ := bind_ok h
    simp only [res_pure, Except.ok.injEq, Prod.mk.injEq] at h2
    obtain ⟨rfl, rfl⟩ := h2
    refine ⟨⟨e, false, crc32 data, UInt64.ofNat data.length, st⟩, rfl, rfl, rfl, rfl,
      fun h => absurd h hp, fun _ => ⟨rfl, rfl, ?_⟩⟩
    unfold wholeCompress at h1
    simp only at h1
    split at h1
    · rename_i hc
      simp only [Except.ok.injEq] at h1
      exact Or.inl ⟨hc, h1.symm⟩
    · rename_i hc
      refine Or.inr ⟨hc, ?_⟩
      unfold compress at h1
      simp only at h1
      split at h1
      · cases h1
      · cases h1
      · rename_i hd
        simp only [Except.ok.injEq] at h1
        refine ⟨hd, (C.feed (C.start e.compression e.compressionLevel) data).2, _, ?_, h1.symm⟩
        have := Encodes.feed (C := C) (e := C.start e.compression e.compressionLevel) data .start
        simpa using this

theorem not_big_le {e : ZipEntry} (h : ¬ Big e) : e.uncompressedSize ≤ 0xFFFFFFFF ∧ e.compressedSize ≤ 0xFFFFFFFF := by
  have := (big_iff e).1 h
  exact ⟨by simpa using this.1, by simpa using this.2⟩

theorem whole_step {C : Codec} {zw : ZipWriter} {e : ZipEntry} {data : Bytes} {pre : Bool} {evs : List Ev} {r : Res Unit}
    {s' : WSt} (h : writeWhole C e data pre ⟨zw, evs⟩ = (r, s')) (hl : Listed r) :
    ∃ l c x em, Asked C (.whole e data pre evs) (.whole r) l ∧ s'.zw = pushed c ((prepZip64 zw em).put x) ∧
      em = { e with crc32 := l.crc, uncompressedSize := l.us, compressedSize := l.cs } ∧
      Describes zw.forceNoZip64 zw.writer.offset l c ∧ LocalRec zw.forceNoZip64 x l c ∧
      ((Big em ∨ ¬ zw.writer.offset ≤ 0xFFFFFFFF) → zw.forceNoZip64 = false) ∧
      extraCountBytes c.entry.extraFields < 2 ^ 16 := by
  obtain ⟨p, em, extra, c, hp, hx, hlate, hz⟩ := writeWhole_listed h hl
  obtain ⟨l, l1, l2, l3, rfl, lpre, lno⟩ := wholeMeasure_ok hp.measure
  have hrec : l.recorded zw.forceNoZip64 = (l.us, l.cs) := by simp [Listing.recorded, l2]
  obtain ⟨w1, w2, w3, w4, w5, w6, w7, w8, w9, w10⟩ := wholeLfh_ok hp.lfh
  have hcdh := hp.cdh
  unfold wholeCdh at hcdh
  obtain ⟨n, hn, hcdh⟩ := bind_ok hcdh
  have hn := tryU16_ok hn
  simp only [res_pure, Except.ok.injEq] at hcdh
  have hent := hp.entry
  have hbl : ∀ off, Big ({ e with crc32 := l.crc, uncompressedSize := l.us, compressedSize := l.cs } : ZipEntry) →
      placed { e with crc32 := l.crc, uncompressedSize := l.us, compressedSize := l.cs } off =
      { e with
        crc32 := l.crc, uncompressedSize := 0xFFFFFFFF, compressedSize := 0xFFFFFFFF
        extraFields := e.extraFields ++ [zip64Of (some l.us) (some l.cs) (farField off)] } := by
    intro off hb; unfold placed; rw [if_pos hb]
  have hsm : ∀ off, ¬ Big ({ e with crc32 := l.crc, uncompressedSize := l.us, compressedSize := l.cs } : ZipEntry) →
      placed { e with crc32 := l.crc, uncompressedSize := l.us, compressedSize := l.cs } off =
      { e with crc32 := l.crc, uncompressedSize := l.us, compressedSize := l.cs } := by
    intro off hb; unfold placed; rw [if_neg hb]
  have hver : ∀ (e' : ZipEntry), e'.filename = e.filename → e'.compression = e.compression →
      asNeededToExtract e' = asNeededToExtract e := by
    intro e' h1 h2; unfold asNeededToExtract ZipEntry.dir; rw [h1, h2]
  have hwu : ∀ fs, withUnicode ({ e with crc32 := l.crc, uncompressedSize := l.us, compressedSize := l.cs } : ZipEntry) fs
      = withUnicode e fs := fun fs => withUnicode_congr rfl rfl fs
  have hasked : Asked C (.whole e data pre evs) (.whole r) l := by
    cases pre with
    | true =>
      obtain ⟨a, b, c⟩ := lpre rfl
      have : l = ⟨e, false, e.crc32, e.uncompressedSize, data⟩ := by
        obtain ⟨le, ls, lc, lu, lst⟩ := l
        simp only at l1 l2 l3 a b c
        rw [l1, l2, a, b, l3, c]
      rw [this]
      exact .wholePre e data evs r hl
    | false =>
      obtain ⟨a, b, c⟩ := lno rfl
      have : l = ⟨e, false, crc32 data, UInt64.ofNat data.length, p.data⟩ := by
        obtain ⟨le, ls, lc, lu, lst⟩ := l
        simp only at l1 l2 l3 a b c
        rw [l1, l2, a, b, l3]
      rw [this]
      exact .whole e data evs r p.data hl c
  by_cases hb : Big ({ e with crc32 := l.crc, uncompressedSize := l.us, compressedSize := l.cs } : ZipEntry)
  · -- sizes in a ZIP64 field
    rw [hbl _ hb, hwu] at hent
    simp only at hent
    have hbu := hp.builder
    rw [if_pos (Or.inl hb)] at hbu
    unfold wholeLateBuilder at hlate
    rw [hbu] at hlate
    simp only [Except.ok.injEq, Prod.mk.injEq] at hlate
    obtain ⟨q1, q2⟩ := hlate
    rw [hent] at w1 w2 w3 w5 w6 w7 w8 w9 w10 q1 hn hcdh
    simp only at w1 w2 w3 w5 w6 w7 w8 w9 w10 hn
    rw [q2] at hcdh
    refine ⟨l, c, _, _, hasked, hz, rfl, ?_, ?_, hp.force, ?_⟩
    · constructor
      · rw [← q1, l1]
      · rw [← q1, l1]
      · rw [← hcdh, l1]; exact w1
      · rw [← hcdh, l1]; exact hn
      · rw [← hcdh, ← q1]; exact w2
      · rw [← hcdh]
      · rw [← hcdh, l1, w3]; exact hver _ rfl rfl
      · rw [← hcdh, w4, l1, l2]; rfl
      · rw [← hcdh, w5, l1]
      · rw [← hcdh, w6, l1]
      · rw [← hcdh, w7, l1]
      · rw [← hcdh, w8]
      · rw [← hcdh]
      · rw [← hcdh, l1]
      · rw [← hcdh, l1]
      · rw [hrec, l1, ← q1]
        refine .big l2 hb ?_ ?_ ?_
        · rw [← hcdh]; exact w9
        · rw [← hcdh]; exact w10
        · rw [← hcdh]
    · rw [hent] at hx
      simp only at hx
      refine ⟨p.lfh, _, extra, ?_, hx, ?_⟩
      · constructor
        · rw [l1]; exact w1
        · exact w2
        · rw [← hcdh]
        · rw [← hcdh]
        · rw [← hcdh]
        · rw [← hcdh]
        · rw [← hcdh]
        · intro _
          exact ⟨w8, Or.inr ⟨farField zw.writer.offset, hb, w9, w10, by rw [← q1], by rw [l1]⟩⟩
        · intro h; rw [l2] at h; cases h
      · rw [hent, l1, l3]
        simp [tailBytes, l2]
    · rw [← q1]
      have := UInt16.toNat_lt p.lfh.extraFieldLength
      simp only
      omega
  · have hsmall := not_big_le hb
    simp only at hsmall
    rw [hsm _ hb, hwu] at hent
    simp only at hent
    have hbu := hp.builder
    rw [hent] at w1 w2 w3 w5 w6 w7 w8 w9 w10 hn hcdh
    simp only at w1 w2 w3 w5 w6 w7 w8 w9 w10 hn
    have hlocal : ∀ (cc : CdEntry), p.lfh.version = cc.header.vNeeded → p.lfh.flags = cc.header.flags →
        p.lfh.compression = cc.header.compression → p.lfh.modTime = cc.header.modTime → p.lfh.modDate = cc.header.modDate →
        LocalRec zw.forceNoZip64 (localBytes p.lfh p.entry.filename.basic extra p.data) l cc := by
      intro cc c1 c2 c3 c4 c5
      rw [hent] at hx
      simp only at hx
      refine ⟨p.lfh, _, extra, ?_, hx, ?_⟩
      · constructor
        · rw [l1]; exact w1
        · exact w2
        · exact c1
        · exact c2
        · exact c3
        · exact c4
        · exact c5
        · intro _
          exact ⟨w8, Or.inl ⟨hsmall.1, hsmall.2, w9, w10, by rw [l1]⟩⟩
        · intro h; rw [l2] at h; cases h
      · rw [hent, l1, l3]
        simp [tailBytes, l2]
    by_cases ho : zw.writer.offset ≤ 0xFFFFFFFF
    · rw [if_pos (Or.inr ho)] at hbu
      unfold wholeLateBuilder at hlate
      rw [hbu] at hlate
      simp only [Except.ok.injEq, Prod.mk.injEq] at hlate
      obtain ⟨q1, q2⟩ := hlate
      rw [hent] at q1
      rw [if_pos ho] at hcdh
      rw [q2] at hcdh
      refine ⟨l, c, _, _, hasked, hz, rfl, ?_, ?_, hp.force, ?_⟩
      · constructor
        · rw [← q1, l1]
        · rw [← q1, l1]
        · rw [← hcdh, l1]; exact w1
        · rw [← hcdh, l1]; exact hn
        · rw [← hcdh, ← q1]; exact w2
        · rw [← hcdh]
        · rw [← hcdh, l1, w3]; exact hver _ rfl rfl
        · rw [← hcdh, w4, l1, l2]; rfl
        · rw [← hcdh, w5, l1]
        · rw [← hcdh, w6, l1]
        · rw [← hcdh, w7, l1]
        · rw [← hcdh, w8]
        · rw [← hcdh]
        · rw [← hcdh, l1]
        · rw [← hcdh, l1]
        · rw [hrec, l1, ← q1]
          refine .plain (fun h => by rw [l2] at h; cases h) hsmall.1 hsmall.2 ho ?_ ?_ ?_
          · rw [← hcdh]; exact w9
          · rw [← hcdh]; exact w10
          · rw [← hcdh]
      · apply hlocal <;> rw [← hcdh]
      · rw [← q1]
        have := UInt16.toNat_lt p.lfh.extraFieldLength
        simp only
        omega
    · rw [if_neg (fun h => h.elim hb ho)] at hbu
      unfold wholeLateBuilder at hlate
      rw [hbu] at hlate
      simp only at hlate
      obtain ⟨f, k1, hlate⟩ := bind_ok hlate
      obtain ⟨nn, k2, hlate⟩ := bind_ok hlate
      have hf : f = ⟨ID_ZIP64, none, none, some (UInt64.ofNat zw.writer.offset), none⟩ := by
        simp only [Zip64Builder.build, Zip64Field.contentSize] at k1
        simpa using k1.symm
      have k2 := tryU16_ok k2
      simp only [res_pure, Except.ok.injEq, Prod.mk.injEq] at hlate
      obtain ⟨q1, q2⟩ := hlate
      rw [hent] at q1 k2
      rw [if_neg ho] at hcdh
      rw [← hcdh] at q2
      refine ⟨l, c, _, _, hasked, hz, rfl, ?_, ?_, hp.force, ?_⟩
      · constructor
        · rw [← q1, l1]
        · rw [← q1, l1]
        · rw [← q2, l1]; exact w1
        · rw [← q2, l1]; exact hn
        · rw [← q2, ← q1]; exact k2
        · rw [← q2]
        · rw [← q2, l1]; simp only; rw [w3]; exact hver _ rfl rfl
        · rw [← q2]; simp only; rw [w4, l1, l2]; rfl
        · rw [← q2]; simp only; rw [w5, l1]
        · rw [← q2]; simp only; rw [w6, l1]
        · rw [← q2]; simp only; rw [w7, l1]
        · rw [← q2]; simp only; rw [w8]
        · rw [← q2]
        · rw [← q2, l1]
        · rw [← q2, l1]
        · rw [hrec, l1, ← q1, hf]
          refine .far l2 hsmall.1 hsmall.2 ho ?_ ?_ ?_
          · rw [← q2]; exact w9
          · rw [← q2]; exact w10
          · rw [← q2]; rfl
      · apply hlocal <;> rw [← q2]
      · rw [← q1]
        have := UInt16.toNat_lt nn
        simp only at k2 ⊢
        omega

end AsyncZip
