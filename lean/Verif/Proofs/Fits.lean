import Verif.Spec.Fits
import Verif.Props.Directory
/-!
# Calls within the limits succeed
-/

namespace AsyncZip
open Spec Wr

theorem count_le_room (fs : List ExtraField) : extraCountBytes fs ≤ allowances fs := by
  induction fs with
  | nil => exact Nat.le_refl _
  | cons f fs ih =>
    have : f.countBytes ≤ allowance f := by
      cases f with
      | zip64 f =>
        show 4 + f.contentSize ≤ 36
        unfold Zip64Field.contentSize
        split <;> split <;> split <;> split <;> omega
      | unicodePath f => cases f <;> exact Nat.le_refl _
      | unicodeComment f => cases f <;> exact Nat.le_refl _
      | unknown f => exact Nat.le_refl _
    show f.countBytes + extraCountBytes fs ≤ allowance f + allowances fs
    omega

theorem room_append (a b : List ExtraField) : allowances (a ++ b) = allowances a + allowances b := by
  induction a with
  | nil => simp [allowances]
  | cons f a ih => simp only [List.cons_append, allowances, ih]; omega

theorem room_path (crc : UInt32) (u : Bytes) (fs : List ExtraField) :
    allowances (putUnicodePath crc u fs) ≤ allowances fs + (9 + u.length) := by
  induction fs with
  | nil => simp [putUnicodePath, allowances, allowance]
  | cons f fs ih =>
    unfold putUnicodePath
    split
    · rename_i h; cases h
    · rename_i h; obtain ⟨rfl, rfl⟩ := List.cons.inj h; simp only [allowances, allowance]; omega
    · rename_i h; obtain ⟨rfl, rfl⟩ := List.cons.inj h; simp only [allowances, allowance]; omega
    · rename_i h; obtain ⟨rfl, rfl⟩ := List.cons.inj h; simp only [allowances]; omega

theorem room_comment (crc : UInt32) (u : Bytes) (fs : List ExtraField) :
    allowances (putUnicodeComment crc u fs) ≤ allowances fs + (9 + u.length) := by
  induction fs with
  | nil => simp [putUnicodeComment, allowances, allowance]
  | cons f fs ih =>
    unfold putUnicodeComment
    split
    · rename_i h; cases h
    · rename_i h; obtain ⟨rfl, rfl⟩ := List.cons.inj h; simp only [allowances, allowance]; omega
    · rename_i h; obtain ⟨rfl, rfl⟩ := List.cons.inj h; simp only [allowances, allowance]; omega
    · rename_i h; obtain ⟨rfl, rfl⟩ := List.cons.inj h; simp only [allowances]; omega

theorem room_unicode (e : ZipEntry) (fs : List ExtraField) :
    allowances (withUnicode e fs) ≤ allowances fs + e.filename.raw.length + e.comment.raw.length + 18 := by
  have h1 : allowances (withPath e.filename fs) ≤ allowances fs + (9 + e.filename.raw.length) := by
    unfold withPath
    split
    · split
      · omega
      · exact room_path _ _ _
    · omega
  have h2 : ∀ gs, allowances (withComment e.comment gs) ≤ allowances gs + (9 + e.comment.raw.length) := by
    intro gs
    unfold withComment
    split
    · split
      · omega
      · exact room_comment _ _ _
    · omega
  unfold withUnicode
  split
  · omega
  · have := h2 (withPath e.filename fs)
    omega

theorem room_sizes (us cs off : UInt64) (fs : List ExtraField) : allowances (putZip64Sizes us cs off fs) ≤ allowances fs + 36 := by
  induction fs with
  | nil => simp [putZip64Sizes, allowances, allowance]
  | cons f fs ih =>
    unfold putZip64Sizes
    split
    · rename_i h; cases h
    · rename_i h; obtain ⟨rfl, rfl⟩ := List.cons.inj h; simp only [allowances, allowance]; omega
    · rename_i h; obtain ⟨rfl, rfl⟩ := List.cons.inj h; simp only [allowances]; omega

/-- Where a ZIP64 field is already there, it is updated in place. -/
theorem room_sizes_mem (us cs off : UInt64) : ∀ (fs : List ExtraField), (∃ f, .zip64 f ∈ fs) →
    allowances (putZip64Sizes us cs off fs) = allowances fs := by
  intro fs
  induction fs with
  | nil => rintro ⟨f, hf⟩; cases hf
  | cons g fs ih =>
    rintro ⟨f, hf⟩
    unfold putZip64Sizes
    split
    · rename_i h; cases h
    · rename_i h; obtain ⟨rfl, rfl⟩ := List.cons.inj h; rfl
    · rename_i hne h
      obtain ⟨rfl, rfl⟩ := List.cons.inj h
      simp only [allowances]
      rw [ih]
      rcases List.mem_cons.1 hf with rfl | hf
      · exact absurd rfl (hne f)
      · exact ⟨f, hf⟩

theorem zip64_mem_path {crc : UInt32} {u : Bytes} {f : Zip64Field} {fs : List ExtraField} (h : .zip64 f ∈ fs) :
    .zip64 f ∈ putUnicodePath crc u fs := by
  induction fs with
  | nil => cases h
  | cons g fs ih =>
    unfold putUnicodePath
    split
    · rename_i h'; cases h'
    · rename_i h'; obtain ⟨rfl, rfl⟩ := List.cons.inj h'
      rcases List.mem_cons.1 h with h | h
      · cases h
      · exact List.mem_cons_of_mem _ h
    · rename_i h'; obtain ⟨rfl, rfl⟩ := List.cons.inj h'; exact h
    · rename_i h'; obtain ⟨rfl, rfl⟩ := List.cons.inj h'
      rcases List.mem_cons.1 h with h | h
      · rw [← h]; exact List.mem_cons_self
      · exact List.mem_cons_of_mem _ (ih h)

theorem zip64_mem_comment {crc : UInt32} {u : Bytes} {f : Zip64Field} {fs : List ExtraField} (h : .zip64 f ∈ fs) :
    .zip64 f ∈ putUnicodeComment crc u fs := by
  induction fs with
  | nil => cases h
  | cons g fs ih =>
    unfold putUnicodeComment
    split
    · rename_i h'; cases h'
    · rename_i h'; obtain ⟨rfl, rfl⟩ := List.cons.inj h'
      rcases List.mem_cons.1 h with h | h
      · cases h
      · exact List.mem_cons_of_mem _ h
    · rename_i h'; obtain ⟨rfl, rfl⟩ := List.cons.inj h'; exact h
    · rename_i h'; obtain ⟨rfl, rfl⟩ := List.cons.inj h'
      rcases List.mem_cons.1 h with h | h
      · rw [← h]; exact List.mem_cons_self
      · exact List.mem_cons_of_mem _ (ih h)

theorem zip64_mem_unicode {e : ZipEntry} {f : Zip64Field} {fs : List ExtraField} (h : .zip64 f ∈ fs) :
    .zip64 f ∈ withUnicode e fs := by
  unfold withUnicode
  split
  · exact h
  · have h1 : .zip64 f ∈ withPath e.filename fs := by
      unfold withPath
      split
      · split
        · exact h
        · exact zip64_mem_path h
      · exact h
    unfold withComment
    split
    · split
      · exact h1
      · exact zip64_mem_comment h1
    · exact h1

/-- The failures that remain possible. -/
def Quit (e : Fail) : Prop := WInterrupted (.error e : Res Unit) ∨ e = .panic ∨ e = tooMany

theorem quit_write (b : Bytes) : Errs Quit (Wr.writeAll b) := Errs.writeAll (fun _ h => Or.inl h) b

theorem quit_push (c : CdEntry) : Errs Quit (pushEntry c) :=
  Errs.bind Errs.modify fun _ => Errs.bind Errs.get fun _ =>
    Errs.ite (Errs.ite (Errs.fail (Or.inr (Or.inr rfl))) Errs.modify) Errs.pure

theorem quit_extra (fs : List ExtraField) : Errs Quit (Wr.lift (extraAsBytes fs)) :=
  Errs.lift fun e he => Or.inr (Or.inl (errsR_extra _ e he))

theorem tryU16_fits {n : Nat} (e : ZipError) (h : n < 2 ^ 16) : tryU16 n e = .ok (UInt16.ofNat n) := if_pos h

/-- A whole call within the limits. -/
theorem writeWhole_quits {C : Codec} {e : ZipEntry} {d : Bytes} {pre : Bool} {s : WSt} (hf : Fits e)
    (hd : ¬ (e.compression = .deflate64 ∧ pre = false)) (hz : s.zw.forceNoZip64 = false) {x : Fail}
    (h : (writeWhole C e d pre s).1 = .error x) : Quit x := by
  obtain ⟨em, d', hm⟩ := measure_total (C := C) (data := d) hd
  have hem := wholeMeasure_ok hm
  obtain ⟨hn, hc, hx⟩ : em.filename = e.filename ∧ em.comment = e.comment ∧ em.extraFields = e.extraFields := by
    obtain ⟨l, _, _, _, h, _⟩ := hem; rw [h]
    exact ⟨rfl, rfl, rfl⟩
  have hroom := hf.extra
  have hplaced : allowances (placed em s.zw.writer.offset).extraFields ≤ allowances e.extraFields + 36 := by
    unfold placed
    split
    · simp only [room_append, hx]
      exact Nat.le_refl _
    · rw [hx]; omega
  have hcount := room_unicode em (placed em s.zw.writer.offset).extraFields
  rw [hn, hc] at hcount
  cases hw : writeWhole C e d pre s with
  | mk r s' =>
    rw [hw] at h
    cases h
    unfold writeWhole at hw
    rcases Wr.bind_error_iff.1 hw with h | ⟨p, s1, h1, h⟩
    · exfalso
      rcases wholePrepare_error h with h | ⟨em', d'', v, h1, rfl, hv⟩
      · rw [hm] at h; cases h
      · rw [hm] at h1
        cases h1
        have := count_le_room (withUnicode em (placed em s.zw.writer.offset).extraFields)
        have h2 := hf.name
        have h3 := hf.comment
        rw [wholeVerdict, if_neg (by rw [hz]; exact fun h => by cases h.1), if_neg (by omega), if_neg (by rw [hn]; omega),
          if_neg (by rw [hc]; omega)] at hv
        cases hv
    · obtain ⟨em', hp, _⟩ := wholePrepare_ok h1
      have hmm := hp.measure
      rw [hm] at hmm
      cases hmm
      have hlate : ∃ q, wholeLateBuilder p = .ok q := by
        unfold wholeLateBuilder
        rw [hp.builder]
        by_cases hb : Big em ∨ s.zw.writer.offset ≤ 0xFFFFFFFF
        · rw [if_pos hb]
          exact ⟨_, rfl⟩
        · rw [if_neg hb]
          have hsum : extraCountBytes (p.entry.extraFields ++
              [ExtraField.zip64 ⟨ID_ZIP64, none, none, some (UInt64.ofNat s.zw.writer.offset), none⟩]) < 2 ^ 16 := by
            rw [extraCount_append, hp.entry]
            have h2 := count_le_room (withUnicode em (placed em s.zw.writer.offset).extraFields)
            have h3 : allowances (placed em s.zw.writer.offset).extraFields = allowances e.extraFields := by
              unfold placed
              rw [if_neg (fun h => hb (Or.inl h)), hx]
            have h4 : extraCountBytes [ExtraField.zip64 ⟨ID_ZIP64, none, none, some (UInt64.ofNat s.zw.writer.offset), none⟩]
              = 12 := rfl
            rw [h4]
            simp only
            omega
          show ∃ q, (tryU16 (extraCountBytes (p.entry.extraFields ++ [ExtraField.zip64 _])) _ >>= _) = _
          rw [tryU16_fits _ hsum]
          exact ⟨_, rfl⟩
      obtain ⟨q, hq⟩ := hlate
      have h := congrArg Prod.fst h
      refine (?_ : Errs Quit _) s1 x h
      exact Errs.bind (quit_write _) fun _ => Errs.bind (quit_write _) fun _ => Errs.bind (quit_write _) fun _ =>
        Errs.bind (quit_extra _) fun _ => Errs.bind (quit_write _) fun _ => Errs.bind (quit_write _) fun _ =>
          Errs.bind (Errs.lift fun e he => by rw [hq] at he; cases he) fun _ => quit_push _

theorem streamEntry_room {e : ZipEntry} (hf : Fits e) : allowances (streamEntry false e).extraFields ≤ 65535 := by
  have h1 := room_unicode e (e.extraFields ++ [zip64Of (some e.uncompressedSize) (some e.compressedSize) none])
  have h2 : allowances (e.extraFields ++ [zip64Of (some e.uncompressedSize) (some e.compressedSize) none])
    = allowances e.extraFields + 36 := by rw [room_append]; rfl
  have h3 := hf.extra
  show allowances (withUnicode e _) ≤ _
  simp only [Bool.false_eq_true, if_false]
  omega

theorem streamLfh_fits {e : ZipEntry} (hf : Fits e) (u : Bool) (a b : UInt32) :
    ∃ h, streamLfh (streamEntry false e) u a b = .ok h := by
  have h1 := streamEntry_room hf
  have h2 := count_le_room (streamEntry false e).extraFields
  have h3 := hf.name
  unfold streamLfh
  rw [tryU16_fits _ (by omega), show (streamEntry false e).filename = e.filename from rfl, tryU16_fits _ (by omega)]
  exact ⟨_, rfl⟩

/-- The failures that remain possible while a stream is being opened. -/
def Stop (e : Fail) : Prop := WInterrupted (.error e : Res Unit) ∨ e = .panic

theorem stop_write (b : Bytes) : Errs Stop (Wr.writeAll b) := Errs.writeAll (fun _ h => Or.inl h) b

theorem stop_extra (fs : List ExtraField) : Errs Stop (Wr.lift (extraAsBytes fs)) :=
  Errs.lift fun e he => Or.inr (errsR_extra _ e he)

/-- Opening a stream within the limits. -/
theorem openStream_quits {C : Codec} {e : ZipEntry} {pre : Bool} {s : WSt} (hf : Fits e)
    (hz : s.zw.forceNoZip64 = false) {x : Fail} (h : (openStream C e pre s).1 = .error x) : Stop x := by
  have hraw : ∀ m, ErrsR Stop (encFromRaw C m pre) := by
    intro m e he
    unfold encFromRaw at he
    split at he
    · cases he
    · split at he
      · cases he
      · cases he; exact Or.inr rfl
      · cases he
  cases hw : openStream C e pre s with
  | mk r s' =>
    rw [hw] at h
    cases h
    unfold openStream at hw
    rw [Wr.bind_get] at hw
    rcases Wr.bind_error_iff.1 hw with h | ⟨q, s1, h1, h⟩
    · unfold streamWriteLfh at h
      rcases Wr.bind_error_iff.1 h with h | ⟨⟨e1, a, b⟩, s1, h1, h⟩
      · exfalso
        unfold streamZip64 at h
        rw [Wr.bind_get, hz] at h
        cases h
      · obtain ⟨g1, _, _, _⟩ := streamZip64_ok h1
        simp only [] at h
        rw [g1, hz] at h
        rcases Wr.bind_error_iff.1 h with h | ⟨lf, s2, h2, h⟩
        · exfalso
          have h := congrArg Prod.fst h
          obtain ⟨lf, hlf⟩ := streamLfh_fits hf (utf8WithoutAlternative e1).1 a b
          rw [hlf] at h
          cases h
        · have h := congrArg Prod.fst h
          exact (Errs.bind (stop_write _) fun _ => Errs.bind (stop_write _) fun _ => Errs.bind (stop_write _) fun _ =>
            Errs.bind (stop_extra _) fun _ => Errs.bind (stop_write _) fun _ => Errs.pure : Errs Stop _) s2 x h
    · obtain ⟨e1, hd⟩ := q
      have h := congrArg Prod.fst h
      exact (Errs.bind Errs.get fun _ => Errs.bind (Errs.lift (hraw _)) fun _ => Errs.pure : Errs Stop _) s1 x h

/-- Closing a stream within the limits: what the stream holds is the entry it was opened with, as the header had it. -/
theorem closeStream_quits {C : Codec} {e : ZipEntry} {st : EntryStream C} {s : WSt} (hf : Fits e)
    (hz : s.zw.forceNoZip64 = false) (hst : st.entry = streamEntry false e) {x : Fail}
    (h : (closeStream st s).1 = .error x) : Quit x := by
  have hen : Errs Quit (encClose st.enc) := by
    cases st.enc with
    | none => exact Errs.pure
    | some s => exact quit_write _
  have hfin : st.finalEntry.extraFields = (streamEntry false e).extraFields ∧ st.finalEntry.comment = e.comment := by
    unfold EntryStream.finalEntry
    split <;> rw [hst] <;> exact ⟨rfl, rfl⟩
  have hsizes : ∀ n o, ∃ q, streamSizes false st.finalEntry st.lfh n o = .ok q ∧ q.1.comment = e.comment := by
    intro n o
    have hz : allowances (putZip64Sizes st.finalEntry.uncompressedSize (UInt64.ofNat n) (UInt64.ofNat o)
        st.finalEntry.extraFields) ≤ 65535 := by
      have hmem : ∃ f, .zip64 f ∈ (streamEntry false e).extraFields := ⟨_, zip64_mem_unicode
        (List.mem_append_right _ (List.mem_cons_self (a := ExtraField.zip64 _)))⟩
      rw [hfin.1, room_sizes_mem _ _ _ _ hmem]
      exact streamEntry_room hf
    have h2 := count_le_room (putZip64Sizes st.finalEntry.uncompressedSize (UInt64.ofNat n) (UInt64.ofNat o)
        st.finalEntry.extraFields)
    unfold streamSizes
    rw [if_neg (by decide)]
    simp only []
    rw [tryU16_fits _ (by omega)]
    exact ⟨_, rfl, hfin.2⟩
  have hcdh : ∀ (e1 : ZipEntry) hd a b c, e1.comment = e.comment → ErrsR Quit (streamCdh e1 hd a b c) := by
    intro e1 hd a b c h1 y hy
    have := hf.comment
    unfold streamCdh at hy
    rw [h1, tryU16_fits _ (by omega)] at hy
    cases hy
  cases hw : closeStream st s with
  | mk r s' =>
    rw [hw] at h
    cases h
    unfold closeStream at hw
    rcases Wr.bind_error_iff.1 hw with h | ⟨q, s1, h1, h⟩
    · exact hen s x (by rw [h])
    · rw [Wr.bind_get] at h
      have hz1 : s1.zw.forceNoZip64 = false := by
        rw [encClose_ok h1]
        exact hz
      rw [hz1] at h
      obtain ⟨⟨e1, hd, a, b, c⟩, hq, hq'⟩ := hsizes (s1.zw.writer.offset - st.dataOffset) st.lfhOffset
      rw [hq, Wr.bind_ok (show Wr.lift _ s1 = (.ok _, s1) from rfl)] at h
      have h := congrArg Prod.fst h
      exact (Errs.bind (quit_write _) fun _ => Errs.bind (quit_write _) fun _ => Errs.bind (quit_write _) fun _ =>
        Errs.bind (quit_write _) fun _ => Errs.bind (Errs.lift (hcdh _ _ _ _ _ hq')) fun _ => quit_push _ : Errs Quit _) s1 x h

end AsyncZip
