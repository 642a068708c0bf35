import Verif.Proofs.WriteInvariant
/-!
# What closing an archive writes
-/

namespace AsyncZip
open Wr Spec

/-- One record of the central directory. -/
def recordBytes (h : CentralDirectoryRecord) (name extra comment : Bytes) : Bytes :=
  le32 CDH_SIGNATURE ++ (h.asSlice ++ (name ++ (extra ++ comment)))

/-- The bytes of a central directory. -/
inductive Directory : List CdEntry → Bytes → Prop where
  | nil : Directory [] []
  | cons {c : CdEntry} {cs : List CdEntry} {extra bs : Bytes} (hx : extraAsBytes c.entry.extraFields = .ok extra)
      (h : Directory cs bs) :
      Directory (c :: cs) (recordBytes c.header c.entry.filename.basic extra c.entry.comment.basic ++ bs)

/-- The ZIP64 end record and locator. -/
def zip64EndBytes (n size off at_ : Nat) : Bytes :=
  le32 ZIP64_EOCDR_SIGNATURE ++ (Zip64EndOfCentralDirectoryRecord.asBytes
    { sizeOfRecord := 44, versionMadeBy := asMadeBy, versionNeeded := 46, diskNumber := 0, diskNumberStartOfCd := 0
      numEntriesOnDisk := UInt64.ofNat n, numEntries := UInt64.ofNat n, directorySize := UInt64.ofNat size
      offsetOfStart := UInt64.ofNat off } ++ (le32 ZIP64_EOCDL_SIGNATURE ++ Zip64EndOfCentralDirectoryLocator.asBytes
    { numberOfDisk := 0, relativeOffset := UInt64.ofNat at_, totalNumberOfDisks := 1 }))

/-- Everything after the directory. -/
def endBytes (z : Bool) (n size off : Nat) (comment : Bytes) : Bytes :=
  (if z then zip64EndBytes n size off (off + size) else []) ++
    (le32 EOCDR_SIGNATURE ++ ((eocdrOf n size off comment).asSlice ++ comment))

theorem writeCdEntry_ok {c : CdEntry} {s s' : WSt} {u : Unit} (h : writeCdEntry c s = (.ok u, s')) :
    ∃ extra, extraAsBytes c.entry.extraFields = .ok extra ∧
      s'.zw = s.zw.put (recordBytes c.header c.entry.filename.basic extra c.entry.comment.basic) := by
  unfold writeCdEntry at h
  obtain ⟨_, s1, h1, p1⟩ := Wr.bind_ok_iff.1 h
  obtain ⟨_, s2, h2, p2⟩ := Wr.bind_ok_iff.1 p1
  obtain ⟨_, s3, h3, p3⟩ := Wr.bind_ok_iff.1 p2
  obtain ⟨extra, s4, h4, p4⟩ := Wr.bind_ok_iff.1 p3
  obtain ⟨g4, rfl⟩ := wr_lift_ok h4
  obtain ⟨_, s5, h5, h6⟩ := Wr.bind_ok_iff.1 p4
  refine ⟨extra, g4, ?_⟩
  rw [writeAll_ok h6, writeAll_ok h5, writeAll_ok h3, writeAll_ok h2, writeAll_ok h1]
  simp only [put_put, recordBytes, List.append_assoc]

theorem writeCdEntries_ok : ∀ {cs : List CdEntry} {s s' : WSt} {u : Unit}, writeCdEntries cs s = (.ok u, s') →
    ∃ cd, Directory cs cd ∧ s'.zw = s.zw.put cd := by
  intro cs
  induction cs with
  | nil =>
    intro s s' u h
    simp only [writeCdEntries, Wr.pure_def, Prod.mk.injEq] at h
    exact ⟨[], .nil, by rw [← h.2, put_nil]⟩
  | cons c cs ih =>
    intro s s' u h
    obtain ⟨_, s1, h1, h2⟩ := Wr.bind_ok_iff.1 h
    obtain ⟨extra, g1, g2⟩ := writeCdEntry_ok h1
    obtain ⟨cd, k1, k2⟩ := ih h2
    exact ⟨_, .cons g1 k1, by rw [k2, g2, put_put]⟩

theorem closeCheckOffset_ok {n : Nat} {s s' : WSt} {u : Unit} (h : closeCheckOffset n s = (.ok u, s')) :
    (n > 0xFFFFFFFF → s.zw.forceNoZip64 = false) ∧
    s'.zw = { s.zw with isZip64 := s.zw.isZip64 || decide (n > 0xFFFFFFFF) } := by
  unfold closeCheckOffset at h
  split at h
  · rename_i hn
    obtain ⟨w, s1, h1, h2⟩ := Wr.bind_ok_iff.1 h
    obtain ⟨rfl, rfl⟩ := get_ok h1
    split at h2
    · cases h2
    · rename_i hf
      simp only [Wr.modify_def, Prod.mk.injEq] at h2
      exact ⟨fun _ => by simpa using hf, by rw [← h2.2]; simp [hn]⟩
  · rename_i hn
    simp only [Wr.pure_def, Prod.mk.injEq] at h
    exact ⟨fun h => absurd h hn, by rw [← h.2]; simp [hn]⟩

theorem writeZip64End_ok {n size off : Nat} {s s' : WSt} {u : Unit} (h : writeZip64End n size off s = (.ok u, s')) :
    s'.zw = s.zw.put (zip64EndBytes n size off s.zw.writer.offset) := by
  unfold writeZip64End at h
  obtain ⟨w, s0, h0, p0⟩ := Wr.bind_ok_iff.1 h
  obtain ⟨rfl, rfl⟩ := get_ok h0
  obtain ⟨_, s1, h1, p1⟩ := Wr.bind_ok_iff.1 p0
  obtain ⟨_, s2, h2, p2⟩ := Wr.bind_ok_iff.1 p1
  obtain ⟨_, s3, h3, h4⟩ := Wr.bind_ok_iff.1 p2
  rw [writeAll_ok h4, writeAll_ok h3, writeAll_ok h2, writeAll_ok h1]
  simp only [put_put, zip64EndBytes, List.append_assoc]

theorem closeArchive_ok {zw : ZipWriter} {evs : List Ev} {sink : Sink} {s' : WSt}
    (h : closeArchive ⟨zw, evs⟩ = (.ok sink, s')) :
    ∃ cd z, Directory zw.cdEntries cd ∧ (zw.writer.offset > 0xFFFFFFFF → zw.forceNoZip64 = false) ∧
      z = (zw.isZip64 || decide (zw.writer.offset > 0xFFFFFFFF)) ∧
      sink.bytes = zw.writer.sink.bytes ++ (cd ++ endBytes z zw.cdEntries.length cd.length zw.writer.offset
        (commentBytes zw.commentOpt)) ∧ s'.zw.writer.sink = sink ∧ s'.zw.isZip64 = z := by
  unfold closeArchive at h
  obtain ⟨w, s0, h0, p0⟩ := Wr.bind_ok_iff.1 h
  obtain ⟨rfl, rfl⟩ := get_ok h0
  obtain ⟨_, s1, h1, p1⟩ := Wr.bind_ok_iff.1 p0
  obtain ⟨cd, d1, d2⟩ := writeCdEntries_ok h1
  obtain ⟨w1, s2, h2, p2⟩ := Wr.bind_ok_iff.1 p1
  obtain ⟨rfl, rfl⟩ := get_ok h2
  obtain ⟨_, s3, h3, p3⟩ := Wr.bind_ok_iff.1 p2
  obtain ⟨k1, k2⟩ := closeCheckOffset_ok h3
  obtain ⟨w2, s4, h4, p4⟩ := Wr.bind_ok_iff.1 p3
  obtain ⟨rfl, rfl⟩ := get_ok h4
  obtain ⟨_, s5, h5, p5⟩ := Wr.bind_ok_iff.1 p4
  obtain ⟨_, s6, h6, p6⟩ := Wr.bind_ok_iff.1 p5
  obtain ⟨_, s7, h7, p7⟩ := Wr.bind_ok_iff.1 p6
  obtain ⟨_, s8, h8, p8⟩ := Wr.bind_ok_iff.1 p7
  obtain ⟨w3, s9, h9, p9⟩ := Wr.bind_ok_iff.1 p8
  obtain ⟨rfl, rfl⟩ := get_ok h9
  simp only [Wr.pure_def, Prod.mk.injEq, Except.ok.injEq] at p9
  obtain ⟨rfl, rfl⟩ := p9
  simp only at d1 d2
  rw [d2] at k1 k2 h7
  have hoff : ∀ z : ZipWriter, (z.put cd).writer.offset - z.writer.offset = cd.length := by
    intro z; show z.writer.offset + cd.length - z.writer.offset = _; omega
  rw [hoff] at h7
  have hz : s5.zw = s4.zw.put (if s4.zw.isZip64 then
      zip64EndBytes w.cdEntries.length cd.length w.writer.offset (w.writer.offset + cd.length) else []) := by
    split at h5
    · rename_i hi
      rw [hi, writeZip64End_ok h5, d2, hoff, if_pos rfl]
      have : s4.zw.writer.offset = w.writer.offset + cd.length := by rw [k2]; rfl
      rw [this]
    · rename_i hi
      simp only [Wr.pure_def, Prod.mk.injEq] at h5
      rw [if_neg hi, put_nil, h5.2]
  have hiz : s4.zw.isZip64 = (w.isZip64 || decide (w.writer.offset > 0xFFFFFFFF)) := by rw [k2]; rfl
  have hb4 : s4.zw.writer.sink.bytes = w.writer.sink.bytes ++ cd := by rw [k2]; rfl
  refine ⟨cd, s4.zw.isZip64, d1, k1, hiz, ?_, rfl, ?_⟩
  · rw [writeAll_ok h8, writeAll_ok h7, writeAll_ok h6, hz]
    simp only [ZipWriter.put, hb4, endBytes, List.append_assoc]
  · rw [writeAll_ok h8, writeAll_ok h7, writeAll_ok h6, hz]
    rfl

end AsyncZip
