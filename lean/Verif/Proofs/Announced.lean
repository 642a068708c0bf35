import Verif.Spec.Announced
import Verif.Proofs.Local
import Verif.Proofs.Fields
/-!
# The local header of an entry that is streamed
-/

namespace AsyncZip
open Wr Spec

theorem fieldAt64_of_drop {data rest : Bytes} {j : Nat} {n : UInt64} (h : data.drop j = le64 n ++ rest) :
    fieldAt data j 8 = n.toNat := by
  have := read64 (data := data) (take_of_drop h (le64_length n)).symm (le64_length n) 0 (Nat.le_refl _)
  rw [show slice (le64 n) 0 (0 + 8) = le64 n by rfl, fromLe64_le64] at this
  exact this.symm

/-- The bytes of a field among those of all. -/
theorem extra_split {fs : List ExtraField} {f : ExtraField} (hf : f ∈ fs) : ∀ {b : Bytes}, extraAsBytes fs = .ok b →
    ∃ p x q, b = p ++ (x ++ q) ∧ f.asBytes = .ok x := by
  induction fs with
  | nil => cases hf
  | cons g fs ih =>
    intro b h
    obtain ⟨b1, h1, h2⟩ := bind_ok h
    obtain ⟨b2, h3, h4⟩ := bind_ok h2
    simp only [res_pure, Except.ok.injEq] at h4
    subst h4
    rcases List.mem_cons.1 hf with rfl | hf
    · exact ⟨[], b1, b2, rfl, h1⟩
    · obtain ⟨p, x, q, rfl, hx⟩ := ih hf h3
      exact ⟨b1 ++ p, x, q, by rw [List.append_assoc], hx⟩

/-- What `openStream` writes announces the entry, whatever follows. -/
theorem openStream_announces {C : Codec} {e : ZipEntry} {pre : Bool} {s s' : WSt} {st : EntryStream C}
    (h : openStream C e pre s = (.ok st, s')) (rest : Bytes) :
    Announces (s'.zw.writer.sink.bytes ++ rest) s.zw.writer.sink.bytes.length s.zw.forceNoZip64 e.crc32.toNat
      e.uncompressedSize.toNat e.compressedSize.toNat := by
  obtain ⟨hd, extra, enc, y1, y2, y3, y4, y5, y6⟩ := openStream_ok h
  generalize hoff : s.zw.writer.sink.bytes.length = off
  generalize hdata : s'.zw.writer.sink.bytes ++ rest = data
  obtain ⟨n, hn, p1⟩ := bind_ok y1
  obtain ⟨m, hm, p2⟩ := bind_ok p1
  simp only [res_pure, Except.ok.injEq] at p2
  have h0 : data.drop off = le32 LFH_SIGNATURE ++ (hd.asSlice ++ (e.filename.basic ++ (extra ++ rest))) := by
    rw [← hdata, y4]
    simp only [ZipWriter.put, localBytes]
    rw [List.append_assoc, List.drop_append_of_le_length (Nat.le_of_eq hoff.symm), ← hoff, List.drop_length, List.nil_append]
    simp only [List.append_assoc, List.append_nil]
  have h1 := drop_append_of_drop h0 (le32_length _)
  have h2 := drop_append_of_drop h1 (lfh_length hd)
  obtain ⟨k1, k2, k3, k4, k5, k6, k7, k8, k9⟩ := lfh_fields (take_of_drop h1 (lfh_length hd)).symm
  have hname : (streamEntry s.zw.forceNoZip64 e).filename = e.filename := rfl
  have hlen := extraAsBytes_length y2
  have n1 := tryU16_ok hn
  have m1 := tryU16_ok hm
  rw [hname] at m1
  have hnl : hd.fileNameLength.toNat = e.filename.basic.length := by rw [← p2]; exact m1
  have hxl : hd.extraFieldLength.toNat = extra.length + 4 * diskFields (streamEntry s.zw.forceNoZip64 e).extraFields := by
    rw [hlen, ← p2]; exact n1
  have h3 := drop_append_of_drop h2 rfl
  refine ⟨?_, ?_, ?_, fun hf => ?_, fun hf => ?_⟩
  · exact occurs_of_drop h0
  · rw [k1, ← p2]
  · rw [k5, ← p2]; rfl
  · rw [k6, k7, ← p2]
    obtain ⟨b1, b2⟩ := y6 hf
    unfold streamHeaderSizes
    rw [if_pos hf]
    simp only []
    rw [UInt64.toNat_toUInt32, UInt64.toNat_toUInt32]
    rw [UInt64.le_iff_toNat_le] at b1 b2
    rw [Nat.mod_eq_of_lt (Nat.lt_of_le_of_lt b1 (by decide)), Nat.mod_eq_of_lt (Nat.lt_of_le_of_lt b2 (by decide))]
    exact ⟨rfl, rfl⟩
  · rw [k6, k7, k8]
    unfold dataStart
    rw [k8, k9]
    have hsz : streamHeaderSizes s.zw.forceNoZip64 e = (NON_ZIP64_MAX_SIZE, NON_ZIP64_MAX_SIZE) := by
      unfold streamHeaderSizes
      rw [if_neg (by rw [hf]; decide)]
    refine ⟨by rw [← p2, hsz]; rfl, by rw [← p2, hsz]; rfl, ?_⟩
    rw [hnl, hxl]
    have hmem : zip64Of (some e.uncompressedSize) (some e.compressedSize) none ∈
        (streamEntry s.zw.forceNoZip64 e).extraFields := by
      have hz : zip64Fields (streamEntry s.zw.forceNoZip64 e).extraFields = zip64Fields (e.extraFields ++
          [zip64Of (some e.uncompressedSize) (some e.compressedSize) none]) := by
        unfold streamEntry
        rw [if_neg (by rw [hf]; decide)]
        exact zips_withUnicode _ _
      rw [zips_append] at hz
      have hin : (⟨ID_ZIP64, some e.uncompressedSize, some e.compressedSize, none, none⟩ : Zip64Field) ∈
          zip64Fields (streamEntry s.zw.forceNoZip64 e).extraFields := by
        rw [hz]
        exact List.mem_append_right _ List.mem_cons_self
      unfold zip64Fields at hin
      obtain ⟨f, hf1, hf2⟩ := List.mem_filterMap.1 hin
      cases f with
      | zip64 z =>
        simp only [Option.some.injEq] at hf2
        rw [hf2] at hf1
        exact hf1
      | unicodeComment _ => cases hf2
      | unicodePath _ => cases hf2
      | unknown _ => cases hf2
    obtain ⟨p, x, q, hx, hb⟩ := extra_split hmem y2
    have hx2 : x = le16 ID_ZIP64 ++ le16 16 ++ (le64 e.uncompressedSize ++ le64 e.compressedSize) := by
      simp only [zip64Of, ExtraField.asBytes, Except.ok.injEq] at hb
      rw [← hb]
      simp [Zip64Field.asBytes, Zip64Field.contentSize, optLe64, optLe32]
    have hxlen : x.length = 20 := by rw [hx2]; simp
    rw [hx, List.append_assoc] at h3
    have h4 := drop_append_of_drop h3 rfl
    refine ⟨off + 4 + 26 + e.filename.basic.length + p.length, by omega, ?_, ?_, ?_, ?_⟩
    · have : extra.length = p.length + (20 + q.length) := by rw [hx]; simp [hxlen]
      omega
    · rw [hx2] at h4
      simp only [List.append_assoc] at h4
      rw [← List.append_assoc] at h4
      exact occurs_of_drop h4
    · rw [hx2] at h4
      simp only [List.append_assoc] at h4
      rw [← List.append_assoc] at h4
      exact fieldAt64_of_drop (drop_append_of_drop h4 (by decide))
    · rw [hx2] at h4
      simp only [List.append_assoc] at h4
      rw [← List.append_assoc] at h4
      have h5 := drop_append_of_drop h4 (n := 4) (by decide)
      have h6 := drop_append_of_drop h5 (le64_length _)
      exact fieldAt64_of_drop h6

/-- A stream that was opened left its header in the sink. -/
theorem runOp_announces {C : Codec} {zw : ZipWriter} {e : ZipEntry} {pre : Bool} {evs : List Ev} {acts : List StreamAct}
    {fin : StreamEnd} {rs : List (Res Nat)} {r : Option (Res Unit)}
    (h : (runOp C zw (.stream e pre evs acts fin)).1 = .stream (.ok ()) rs r) (rest : Bytes) :
    Announces ((runOp C zw (.stream e pre evs acts fin)).2.writer.sink.bytes ++ rest) zw.writer.sink.bytes.length
      zw.forceNoZip64 e.crc32.toNat e.uncompressedSize.toNat e.compressedSize.toNat := by
  cases ho : openStream C e pre ⟨zw, evs⟩ with
  | mk ro s =>
    cases ro with
    | error x => rw [runOp_open_error ho] at h; cases h
    | ok st =>
      obtain ⟨rs, zw', st', em, f, h1, hl, h2, h3⟩ := runActs_spec acts s.zw st
      obtain ⟨x, hx, _⟩ := h2.extF.bytes
      cases fin with
      | abandon =>
        rw [runOp_abandon ho h1, hx, List.append_assoc]
        exact openStream_announces ho _
      | close evs' =>
        obtain ⟨y, hy, _⟩ := (Grows.closeStream st' ⟨zw', evs'⟩).bytes
        rw [runOp_close ho h1 (t := (closeStream st' ⟨zw', evs'⟩).2) (r := (closeStream st' ⟨zw', evs'⟩).1) rfl, hy]
        simp only []
        rw [hx, List.append_assoc, List.append_assoc]
        exact openStream_announces ho _

end AsyncZip
