import Verif.Spec.Verdict
import Verif.Proofs.WriteCount
import Verif.Proofs.WriteHistoryStream
import Verif.Proofs.WriteEmits
/-!
# What the writer refuses, and with which error
-/

namespace AsyncZip
open Spec Wr

/-! ## How extra fields are counted -/

theorem counted_eq (f : ExtraField) : f.countBytes = counted f := by
  cases f with
  | zip64 f =>
    obtain ⟨i, u, c, o, d⟩ := f
    cases u <;> cases c <;> cases o <;> cases d <;> rfl
  | unicodePath f => cases f <;> rfl
  | unicodeComment f => cases f <;> rfl
  | unknown f => rfl

theorem countedAll_eq (fs : List ExtraField) : extraCountBytes fs = countedAll fs := by
  induction fs with
  | nil => rfl
  | cons f fs ih => rw [extraCountBytes, counted_eq, ih]; rfl

theorem countedAll_cons (f : ExtraField) (fs : List ExtraField) : countedAll (f :: fs) = counted f + countedAll fs := rfl

theorem countedAll_append (a b : List ExtraField) : countedAll (a ++ b) = countedAll a + countedAll b := by
  simp [countedAll]

theorem pathField_le {fs : List ExtraField} {c : UInt32} {s : Bytes} (h : pathField fs = some (.v1 c s)) :
    s.length ≤ countedAll fs := by
  induction fs with
  | nil => cases h
  | cons f fs ih =>
    rw [countedAll_cons]
    cases f with
    | unicodePath g =>
      simp only [pathField, List.findSome?_cons, Option.some.injEq] at h
      subst h
      simp only [counted]; omega
    | zip64 g => exact Nat.le_trans (ih h) (Nat.le_add_left _ _)
    | unicodeComment g => exact Nat.le_trans (ih h) (Nat.le_add_left _ _)
    | unknown g => exact Nat.le_trans (ih h) (Nat.le_add_left _ _)

theorem commentField_le {fs : List ExtraField} {c : UInt32} {s : Bytes} (h : commentField fs = some (.v1 c s)) :
    s.length ≤ countedAll fs := by
  induction fs with
  | nil => cases h
  | cons f fs ih =>
    rw [countedAll_cons]
    cases f with
    | unicodeComment g =>
      simp only [commentField, List.findSome?_cons, Option.some.injEq] at h
      subst h
      simp only [counted]; omega
    | zip64 g => exact Nat.le_trans (ih h) (Nat.le_add_left _ _)
    | unicodePath g => exact Nat.le_trans (ih h) (Nat.le_add_left _ _)
    | unknown g => exact Nat.le_trans (ih h) (Nat.le_add_left _ _)

theorem retold_add {a total n : Nat} {o : Option InfoZipField} (h : ∀ c s, o = some (.v1 c s) → s.length ≤ total) :
    retold (a + total) n o = a + retold total n o := by
  cases o with
  | none => simp only [retold]; omega
  | some f =>
    cases f with
    | v1 c s =>
      have := h c s rfl
      simp only [retold]; omega
    | unknown v d => rfl

theorem counted_path (crc : UInt32) (u : Bytes) : ∀ fs : List ExtraField,
    countedAll (putUnicodePath crc u fs) = retold (countedAll fs) u.length (pathField fs)
  | [] => by simp [putUnicodePath, countedAll, counted, pathField, retold]
  | f :: fs => by
    have ih := counted_path crc u fs
    have hr := retold_add (a := counted f) (n := u.length) (fun c s h => pathField_le (fs := fs) (c := c) (s := s) h)
    cases f with
    | unicodePath g =>
      cases g with
      | v1 c s =>
        simp only [putUnicodePath, countedAll_cons, pathField, List.findSome?_cons, retold, counted]; omega
      | unknown v d => rfl
    | zip64 g => rw [countedAll_cons]; exact (congrArg (_ + ·) ih).trans hr.symm
    | unicodeComment g => rw [countedAll_cons]; exact (congrArg (_ + ·) ih).trans hr.symm
    | unknown g => rw [countedAll_cons]; exact (congrArg (_ + ·) ih).trans hr.symm

theorem counted_comment (crc : UInt32) (u : Bytes) : ∀ fs : List ExtraField,
    countedAll (putUnicodeComment crc u fs) = retold (countedAll fs) u.length (commentField fs)
  | [] => by simp [putUnicodeComment, countedAll, counted, commentField, retold]
  | f :: fs => by
    have ih := counted_comment crc u fs
    have hr := retold_add (a := counted f) (n := u.length) (fun c s h => commentField_le (fs := fs) (c := c) (s := s) h)
    cases f with
    | unicodeComment g =>
      cases g with
      | v1 c s =>
        simp only [putUnicodeComment, countedAll_cons, commentField, List.findSome?_cons, retold, counted]; omega
      | unknown v d => rfl
    | zip64 g => rw [countedAll_cons]; exact (congrArg (_ + ·) ih).trans hr.symm
    | unicodePath g => rw [countedAll_cons]; exact (congrArg (_ + ·) ih).trans hr.symm
    | unknown g => rw [countedAll_cons]; exact (congrArg (_ + ·) ih).trans hr.symm

theorem commentField_path (crc : UInt32) (u : Bytes) : ∀ fs : List ExtraField,
    commentField (putUnicodePath crc u fs) = commentField fs
  | [] => rfl
  | f :: fs => by
    have ih := commentField_path crc u fs
    cases f with
    | unicodePath g => cases g <;> rfl
    | zip64 g => exact ih
    | unicodeComment g => rfl
    | unknown g => exact ih

theorem zip64Field_path (crc : UInt32) (u : Bytes) : ∀ fs : List ExtraField,
    zip64Field (putUnicodePath crc u fs) = zip64Field fs
  | [] => rfl
  | f :: fs => by
    have ih := zip64Field_path crc u fs
    cases f with
    | unicodePath g => cases g <;> rfl
    | zip64 g => rfl
    | unicodeComment g => exact ih
    | unknown g => exact ih

theorem zip64Field_comment (crc : UInt32) (u : Bytes) : ∀ fs : List ExtraField,
    zip64Field (putUnicodeComment crc u fs) = zip64Field fs
  | [] => rfl
  | f :: fs => by
    have ih := zip64Field_comment crc u fs
    cases f with
    | unicodeComment g => cases g <;> rfl
    | zip64 g => rfl
    | unicodePath g => exact ih
    | unknown g => exact ih

theorem told_iff (s : ZipString) : Told s ↔ s.encoding = .utf8 ∧ s.raw.isEmpty = false := by
  unfold Told
  cases s.raw <;> simp

theorem withPath_eq (n : ZipString) (fs : List ExtraField) :
    withPath n fs = if Told n then putUnicodePath (crc32 n.basic) n.raw fs else fs := by
  unfold withPath
  by_cases h : Told n
  · obtain ⟨h1, h2⟩ := (told_iff n).1 h
    rw [if_pos h, h1, h2]; rfl
  · rw [if_neg h]
    rw [told_iff] at h
    cases he : n.encoding with
    | raw => rfl
    | utf8 =>
      have : n.raw.isEmpty = true := by
        cases hr : n.raw.isEmpty with
        | true => rfl
        | false => exact absurd ⟨he, hr⟩ h
      simp [this]

theorem withComment_eq (n : ZipString) (fs : List ExtraField) :
    withComment n fs = if Told n then putUnicodeComment (crc32 n.basic) n.raw fs else fs := by
  unfold withComment
  by_cases h : Told n
  · obtain ⟨h1, h2⟩ := (told_iff n).1 h
    rw [if_pos h, h1, h2]; rfl
  · rw [if_neg h]
    rw [told_iff] at h
    cases he : n.encoding with
    | raw => rfl
    | utf8 =>
      have : n.raw.isEmpty = true := by
        cases hr : n.raw.isEmpty with
        | true => rfl
        | false => exact absurd ⟨he, hr⟩ h
      simp [this]

theorem bothUtf8_iff (e : ZipEntry) : bothUtf8 e = true ↔ PlainTexts e := by
  unfold bothUtf8 PlainTexts ZipString.isUtf8WithoutAlternative
  cases e.filename.encoding <;> cases e.comment.encoding <;> simp

/-- The count after the texts were put in. -/
theorem counted_unicode (e : ZipEntry) (fs : List ExtraField) (hp : pathField fs = pathField e.extraFields)
    (hc : commentField fs = commentField e.extraFields) :
    countedAll (withUnicode e fs) = namedTotal e (countedAll fs) := by
  unfold withUnicode namedTotal
  by_cases h : PlainTexts e
  · rw [if_pos h, if_pos ((bothUtf8_iff e).2 h)]
  · rw [if_neg h, if_neg (fun h' => h ((bothUtf8_iff e).1 h'))]
    rw [withComment_eq, withPath_eq]
    have hcp : commentField (if Told e.filename then putUnicodePath (crc32 e.filename.basic) e.filename.raw fs else fs) =
        commentField e.extraFields := by
      split
      · rw [commentField_path, hc]
      · exact hc
    have hpp : countedAll (if Told e.filename then putUnicodePath (crc32 e.filename.basic) e.filename.raw fs else fs) =
        if Told e.filename then retold (countedAll fs) e.filename.raw.length (pathField e.extraFields) else countedAll fs := by
      split
      · rw [counted_path, hp]
      · rfl
    simp only
    rw [← hpp]
    by_cases h2 : Told e.comment
    · rw [if_pos h2, if_pos h2, counted_comment, hcp]
    · rw [if_neg h2, if_neg h2]

theorem zip64Field_unicode (e : ZipEntry) (fs : List ExtraField) : zip64Field (withUnicode e fs) = zip64Field fs := by
  unfold withUnicode
  split
  · rfl
  · rw [withComment_eq, withPath_eq]
    split <;> split <;> simp only [zip64Field_comment, zip64Field_path]

theorem pathField_zip64 (fs : List ExtraField) (f : Zip64Field) : pathField (fs ++ [.zip64 f]) = pathField fs := by
  simp [pathField, List.findSome?_append]

theorem commentField_zip64 (fs : List ExtraField) (f : Zip64Field) : commentField (fs ++ [.zip64 f]) = commentField fs := by
  simp [commentField, List.findSome?_append]

theorem zip64Field_zip64 (fs : List ExtraField) (f : Zip64Field) :
    zip64Field (fs ++ [.zip64 f]) = some ((zip64Field fs).getD f) := by
  unfold zip64Field
  rw [List.findSome?_append]
  cases List.findSome? (fun x => match x with | .zip64 f => some f | _ => none) fs <;> rfl

/-- The count after sizes and offset were put into the first ZIP64 field. -/
theorem counted_sizes (us cs off : UInt64) : ∀ (fs : List ExtraField) (f : Zip64Field), zip64Field fs = some f →
    countedAll (putZip64Sizes us cs off fs) + counted (.zip64 f) =
      countedAll fs + (28 + (if f.diskStartNumber.isSome then 8 else 0))
  | [], f, h => by cases h
  | g :: fs, f, h => by
    have ih := fun h' => counted_sizes us cs off fs f h'
    cases g with
    | zip64 g =>
      simp only [zip64Field, List.findSome?_cons, Option.some.injEq] at h
      subst h
      simp only [putZip64Sizes, countedAll_cons, counted, Option.isSome_some, if_true]
      omega
    | unicodePath g => have := ih h; simp only [putZip64Sizes, countedAll_cons]; omega
    | unicodeComment g => have := ih h; simp only [putZip64Sizes, countedAll_cons]; omega
    | unknown g => have := ih h; simp only [putZip64Sizes, countedAll_cons]; omega

/-! ## Whole entries -/

theorem beyond_iff {x : UInt64} {n : Nat} (h : x.toNat = n) : x > 0xFFFFFFFF ↔ Beyond32 n := by
  subst h
  exact UInt64.lt_iff_toNat_lt

theorem FirstOf.append {rows more : List (Prop × Fail)} {r : Res Unit} (h : FirstOf rows (.ok ())) (h' : FirstOf more r) :
    FirstOf (rows ++ more) r := by
  induction rows with
  | nil => exact h'
  | cons a rows ih =>
    obtain ⟨p, x⟩ := a
    cases h with
    | later hn h => exact .later hn (ih h)

theorem FirstOf.early {rows more : List (Prop × Fail)} {x : Fail} (h : FirstOf rows (.error x)) :
    FirstOf (rows ++ more) (.error x) := by
  generalize hr : (Except.error x : Res Unit) = r at h
  induction h with
  | none => cases hr
  | here h => exact .here h
  | later hn _ ih => exact .later hn (ih hr)

/-- There is exactly one outcome. -/
theorem FirstOf.unique {rows : List (Prop × Fail)} {r r' : Res Unit} (h : FirstOf rows r) (h' : FirstOf rows r') : r = r' := by
  induction h with
  | none => cases h'; rfl
  | here h => cases h' with
    | here => rfl
    | later hn => exact absurd h hn
  | later hn _ ih => cases h' with
    | here h => exact absurd h hn
    | later _ h => exact ih h

/-- The entry after measuring. -/
def measured (C : Codec) (e : ZipEntry) (d : Bytes) (pre : Bool) : ZipEntry :=
  { e with
    uncompressedSize := if pre then e.uncompressedSize else UInt64.ofNat d.length
    crc32 := if pre then e.crc32 else crc32 d
    compressedSize := UInt64.ofNat (wholeStored C e d pre).length }

theorem measure_eq {C : Codec} {e : ZipEntry} {d : Bytes} {pre : Bool} (h : ¬ (e.compression = .deflate64 ∧ pre = false)) :
    wholeMeasure C e d pre = .ok (measured C e d pre, wholeStored C e d pre) := by
  cases pre with
  | true => rfl
  | false =>
    unfold wholeMeasure wholeCompress compress measured wholeStored
    cases hc : e.compression with
    | deflate64 => exact absurd ⟨hc, rfl⟩ h
    | stored => simp
    | deflate => simp
    | bz => simp
    | lzma => simp
    | xz => simp
    | zstd => simp

theorem measure_deflate64 {C : Codec} {e : ZipEntry} {d : Bytes} {pre : Bool} (h : e.compression = .deflate64 ∧ pre = false) :
    wholeMeasure C e d pre = .error .panic := by
  obtain ⟨h, rfl⟩ := h
  unfold wholeMeasure wholeCompress compress
  simp [h]

theorem u64_toNat {n : Nat} (h : n < 2 ^ 64) : (UInt64.ofNat n).toNat = n := by
  rw [UInt64.toNat_ofNat', Nat.mod_eq_of_lt h]

/-- The uncompressed size of a whole entry. -/
def wholeSize (e : ZipEntry) (d : Bytes) (pre : Bool) : Nat := if pre then e.uncompressedSize.toNat else d.length

theorem big_beyond {C : Codec} {e em : ZipEntry} {d : Bytes} {pre : Bool} (hd : d.length < 2 ^ 64)
    (hs : (wholeStored C e d pre).length < 2 ^ 64)
    (hu : em.uncompressedSize = if pre then e.uncompressedSize else UInt64.ofNat d.length)
    (hc : em.compressedSize = UInt64.ofNat (wholeStored C e d pre).length) :
    Big em ↔ (Beyond32 (wholeSize e d pre) ∨ Beyond32 (wholeStored C e d pre).length) := by
  unfold Big
  refine or_congr (beyond_iff ?_) (beyond_iff ?_)
  · rw [hu]
    unfold wholeSize
    cases pre with
    | true => rfl
    | false => exact u64_toNat hd
  · rw [hc]
    exact u64_toNat hs

theorem placed_counted (e em : ZipEntry) (off : Nat) (hn : em.filename = e.filename) (hc : em.comment = e.comment)
    (hx : em.extraFields = e.extraFields) :
    extraCountBytes (withUnicode em (placed em off).extraFields) =
      namedTotal e (countedAll e.extraFields + (if Big em then (if Beyond32 off then 28 else 20) else 0)) := by
  rw [withUnicode_congr hn hc, countedAll_eq]
  unfold placed
  by_cases hb : Big em
  · rw [if_pos hb, if_pos hb]
    simp only [hx]
    rw [zip64Of, counted_unicode _ _ (pathField_zip64 _ _) (commentField_zip64 _ _), countedAll_append]
    congr 2
    unfold farField
    by_cases ho : off ≤ 0xFFFFFFFF
    · rw [if_pos ho, if_neg (show ¬ Beyond32 off from fun h => absurd h (Nat.not_lt.2 ho))]; rfl
    · rw [if_neg ho, if_pos (show Beyond32 off from Nat.not_le.1 ho)]; rfl
  · rw [if_neg hb, if_neg hb, hx]
    exact counted_unicode _ _ rfl rfl

theorem wholeVerdict_rows {C : Codec} {e em : ZipEntry} {d : Bytes} {pre : Bool} (force : Bool) (off : Nat)
    (hb : Big em ↔ (Beyond32 (wholeSize e d pre) ∨ Beyond32 (wholeStored C e d pre).length))
    (h : ¬ (e.compression = .deflate64 ∧ pre = false)) (hn : em.filename = e.filename) (hc : em.comment = e.comment)
    (hx : em.extraFields = e.extraFields) :
    FirstOf (wholeRows force off e pre (wholeSize e d pre) (wholeStored C e d pre).length)
      (match wholeVerdict force off em with | none => .ok () | some v => .error (.err v)) := by
  have hcount := placed_counted e em off hn hc hx
  have ho : Beyond32 off ↔ ¬ off ≤ 0xFFFFFFFF := by unfold Beyond32; omega
  unfold wholeVerdict wholeRows
  refine .later h ?_
  rw [hcount, hn, hc]
  simp only [hb]
  by_cases h1 : force = true ∧ ((Beyond32 (wholeSize e d pre) ∨ Beyond32 (wholeStored C e d pre).length) ∨ ¬ off ≤ 0xFFFFFFFF)
  · rw [if_pos h1]
    refine .here ⟨h1.1, ?_⟩
    rw [ho, ← or_assoc]
    exact h1.2
  rw [if_neg h1]
  refine .later (fun h => h1 ⟨h.1, ?_⟩) ?_
  · rw [ho, ← or_assoc] at h
    exact h.2
  generalize namedTotal e (countedAll e.extraFields + if Beyond32 (wholeSize e d pre) ∨ Beyond32 (wholeStored C e d pre).length then
    (if Beyond32 off then 28 else 20) else 0) = n1
  generalize e.filename.basic.length = n2
  generalize e.comment.basic.length = n3
  by_cases h2 : n1 < 2 ^ 16
  · rw [if_neg (fun h => h h2)]
    refine .later (by omega) ?_
    by_cases h3 : n2 < 2 ^ 16
    · rw [if_neg (fun h => h h3)]
      refine .later (by omega) ?_
      by_cases h4 : n3 < 2 ^ 16
      · rw [if_neg (fun h => h h4)]
        exact .later (by omega) .none
      · rw [if_pos h4]; exact .here (by omega)
    · rw [if_pos h3]; exact .here (by omega)
  · rw [if_pos h2]; exact .here (by omega)

/-- What is left of the writer after the bytes of a whole entry. -/
theorem writeWhole_rest {C : Codec} {e em : ZipEntry} {d : Bytes} {pre : Bool} {zw : ZipWriter} {evs : List Ev} {s1 : WSt}
    {p : Prepared} (h1 : wholePrepare C e d pre ⟨zw, evs⟩ = (.ok p, s1)) (hp : PreparedFacts C e d pre zw p em) :
    WInterrupted (writeWhole C e d pre ⟨zw, evs⟩).1 ∨
    (∃ x, wholeLateBuilder p = .error x ∧ (writeWhole C e d pre ⟨zw, evs⟩).1 = .error x ∧
      (writeWhole C e d pre ⟨zw, evs⟩).2.zw.cdEntries = s1.zw.cdEntries) ∨
    (∃ a, wholeLateBuilder p = .ok a ∧ (writeWhole C e d pre ⟨zw, evs⟩).1 =
      if 0xFFFF < s1.zw.cdEntries.length + 1 ∧ s1.zw.forceNoZip64 = true then .error tooMany else .ok ()) := by
  have hl := (wholeLfh_ok hp.lfh).2.1
  have hl2 := UInt16.toNat_lt p.lfh.extraFieldLength
  obtain ⟨extra, hx⟩ := extraAsBytes_ok p.entry.extraFields (by omega)
  obtain ⟨r0, z0, hprep⟩ := Determined.wholePrepare C e d pre zw
  obtain ⟨rfl, rfl⟩ := hprep.useOk h1
  cases hb : wholeLateBuilder p with
  | error x =>
    obtain ⟨z, ho, hz⟩ : ∃ z, Outcome (writeWhole C e d pre) zw (.error x) z ∧ z.cdEntries = s1.zw.cdEntries := by
      refine ⟨((((s1.zw.put (le32 LFH_SIGNATURE)).put p.lfh.asSlice).put p.entry.filename.basic).put extra).put p.data, ?_, rfl⟩
      unfold writeWhole
      exact hprep.bind (Outcome.writeAll.bind (Outcome.writeAll.bind (Outcome.writeAll.bind ((Outcome.liftOk hx).bind
        (Outcome.writeAll.bind (Outcome.writeAll.bind (Outcome.bind_error (by rw [hb]; exact Outcome.lift))))))))
    rcases ho evs with h | h
    · exact Or.inl h
    · exact Or.inr (Or.inl ⟨x, rfl, h.1, (congrArg ZipWriter.cdEntries h.2).trans hz⟩)
  | ok a =>
    obtain ⟨en, hd⟩ := a
    have hpush : ∀ z : ZipWriter, Outcome (pushEntry ⟨hd, en⟩) z
        (if 0xFFFF < z.cdEntries.length + 1 ∧ z.forceNoZip64 = true then .error tooMany else .ok ()) (pushed ⟨hd, en⟩ z) := by
      intro z evs
      right
      rw [pushEntry_eq]
      exact ⟨rfl, rfl⟩
    obtain ⟨z, ho⟩ : ∃ z, Outcome (writeWhole C e d pre) zw (if 0xFFFF < s1.zw.cdEntries.length + 1 ∧
        s1.zw.forceNoZip64 = true then .error tooMany else .ok ()) z := by
      refine ⟨pushed ⟨hd, en⟩ (((((s1.zw.put (le32 LFH_SIGNATURE)).put p.lfh.asSlice).put p.entry.filename.basic).put extra).put p.data), ?_⟩
      unfold writeWhole
      exact hprep.bind (Outcome.writeAll.bind (Outcome.writeAll.bind (Outcome.writeAll.bind ((Outcome.liftOk hx).bind
        (Outcome.writeAll.bind (Outcome.writeAll.bind ((Outcome.liftOk hb).bind (hpush _))))))))
    rcases ho evs with h | h
    · exact Or.inl h
    · exact Or.inr (Or.inr ⟨(en, hd), rfl, h.1⟩)

/-- A row that applies before anything is written decides, whatever the sink does. -/
theorem whole_early {C : Codec} {e : ZipEntry} {d : Bytes} {pre : Bool} {zw : ZipWriter} {evs : List Ev} {x : Fail}
    (hd : d.length < 2 ^ 64) (hs : (wholeStored C e d pre).length < 2 ^ 64)
    (h : FirstOf (wholeRows zw.forceNoZip64 zw.writer.offset e pre (wholeSize e d pre) (wholeStored C e d pre).length)
      (.error x)) :
    (writeWhole C e d pre ⟨zw, evs⟩).1 = .error x ∧ (writeWhole C e d pre ⟨zw, evs⟩).2.zw.writer = zw.writer ∧
      (writeWhole C e d pre ⟨zw, evs⟩).2.zw.cdEntries = zw.cdEntries := by
  by_cases h0 : e.compression = .deflate64 ∧ pre = false
  · have := FirstOf.unique h (.here h0)
    rw [Except.error.injEq] at this
    subst this
    have hr : writeWhole C e d pre ⟨zw, evs⟩ = (.error .panic, ⟨zw, evs⟩) := by
      unfold writeWhole
      apply Wr.bind_err
      unfold wholePrepare
      apply Wr.bind_err
      rw [Wr.lift_def, measure_deflate64 h0]
    rw [hr]
    exact ⟨rfl, rfl, rfl⟩
  · have hm := measure_eq (C := C) (d := d) h0
    have hb := big_beyond (em := measured C e d pre) hd hs rfl rfl
    have hv := FirstOf.unique h (wholeVerdict_rows (em := measured C e d pre) zw.forceNoZip64 zw.writer.offset hb h0 rfl rfl rfl)
    split at hv
    · cases hv
    · rename_i v hv'
      rw [Except.error.injEq] at hv
      subst hv
      obtain ⟨s', g1, g2, g3⟩ := writeWhole_verdict ⟨zw, evs⟩ hm hv'
      rw [g1]
      exact ⟨rfl, g2, g3⟩

theorem whole_rows {C : Codec} {e : ZipEntry} {d : Bytes} {pre : Bool} {zw : ZipWriter} {evs : List Ev}
    (hd : d.length < 2 ^ 64) (hs : (wholeStored C e d pre).length < 2 ^ 64) :
    WInterrupted (writeWhole C e d pre ⟨zw, evs⟩).1 ∨
    FirstOf (wholeRows zw.forceNoZip64 zw.writer.offset e pre (wholeSize e d pre) (wholeStored C e d pre).length ++
      wholeLateRows zw.forceNoZip64 zw.writer.offset zw.cdEntries.length e (wholeSize e d pre) (wholeStored C e d pre).length)
      (writeWhole C e d pre ⟨zw, evs⟩).1 := by
  by_cases h0 : e.compression = .deflate64 ∧ pre = false
  · right
    rw [(whole_early hd hs (.here h0)).1]
    exact .here h0
  have hm := measure_eq (C := C) (d := d) h0
  have hb := big_beyond (em := measured C e d pre) hd hs rfl rfl
  have hv := wholeVerdict_rows (em := measured C e d pre) zw.forceNoZip64 zw.writer.offset hb h0 rfl rfl rfl
  split at hv
  · rename_i hv'
    cases hr : wholePrepare C e d pre ⟨zw, evs⟩ with
    | mk q s1 =>
      cases q with
      | error x =>
        exfalso
        rcases wholePrepare_error hr with h | ⟨em', d', v', g1, rfl, g2⟩
        · rw [hm] at h; cases h
        · rw [hm] at g1
          simp only [Except.ok.injEq, Prod.mk.injEq] at g1
          obtain ⟨rfl, _⟩ := g1
          rw [hv'] at g2; cases g2
      | ok p =>
        obtain ⟨em, hp, rfl⟩ := wholePrepare_ok hr
        have hem := hp.measure
        rw [hm] at hem
        simp only [Except.ok.injEq, Prod.mk.injEq] at hem
        obtain ⟨rfl, _⟩ := hem
        rcases writeWhole_rest hr hp with h | h
        · exact Or.inl h
        right
        refine FirstOf.append hv ?_
        have hbu := hp.builder
        simp only [hb] at hbu
        have hent : extraCountBytes p.entry.extraFields = namedTotal e (countedAll e.extraFields +
            (if Beyond32 (wholeSize e d pre) ∨ Beyond32 (wholeStored C e d pre).length then
              (if Beyond32 zw.writer.offset then 28 else 20) else 0)) := by
          rw [hp.entry]
          have := placed_counted e (measured C e d pre) zw.writer.offset rfl rfl rfl
          simp only [hb] at this
          exact this
        have hcd : (prepZip64 zw (measured C e d pre)).cdEntries = zw.cdEntries := rfl
        have hff : (prepZip64 zw (measured C e d pre)).forceNoZip64 = zw.forceNoZip64 := rfl
        have hcount : ∀ r : Res Unit, r = (if 0xFFFF < zw.cdEntries.length + 1 ∧ zw.forceNoZip64 = true then .error tooMany
            else .ok ()) →
            FirstOf [(zw.forceNoZip64 = true ∧ 65535 ≤ zw.cdEntries.length, .err (.zip64Needed .tooManyFiles))] r := by
          rintro r rfl
          by_cases hc : 0xFFFF < zw.cdEntries.length + 1 ∧ zw.forceNoZip64 = true
          · rw [if_pos hc]; exact .here ⟨hc.2, by omega⟩
          · rw [if_neg hc]; exact .later (fun h => hc ⟨by omega, h.1⟩) .none
        by_cases hfar : ¬ (Beyond32 (wholeSize e d pre) ∨ Beyond32 (wholeStored C e d pre).length) ∧
            Beyond32 zw.writer.offset
        · rw [if_neg (fun h => h.elim hfar.1 (Nat.not_le.2 hfar.2))] at hbu
          rw [if_neg hfar.1, Nat.add_zero] at hent
          have hn : extraCountBytes (p.entry.extraFields ++ [ExtraField.zip64 ⟨ID_ZIP64, none, none,
              some (UInt64.ofNat zw.writer.offset), none⟩]) = namedTotal e (countedAll e.extraFields) + 12 := by
            rw [extraCount_append, hent]; rfl
          have hlate : wholeLateBuilder p = if namedTotal e (countedAll e.extraFields) + 12 < 2 ^ 16 then
              .ok ({ p.entry with extraFields := p.entry.extraFields ++ [ExtraField.zip64 ⟨ID_ZIP64, none, none,
                some (UInt64.ofNat zw.writer.offset), none⟩] },
                { p.cdh with extraFieldLength := UInt16.ofNat (namedTotal e (countedAll e.extraFields) + 12) })
              else .error (.err .extraFieldTooLarge) := by
            unfold wholeLateBuilder
            rw [hbu]
            simp only
            rw [show Zip64Builder.build ⟨ID_ZIP64, none, none, some (UInt64.ofNat zw.writer.offset), none⟩ =
              .ok ⟨ID_ZIP64, none, none, some (UInt64.ofNat zw.writer.offset), none⟩ from rfl]
            rw [res_ok_bind, hn]
            unfold tryU16
            split <;> rfl
          by_cases hroom : namedTotal e (countedAll e.extraFields) + 12 < 2 ^ 16
          · rw [if_pos hroom] at hlate
            refine .later (fun h => absurd h.2.2 (by omega)) (hcount _ ?_)
            rcases h with ⟨x, h, _⟩ | ⟨a, _, h⟩
            · rw [hlate] at h; cases h
            · rw [h, hcd, hff]
          · rw [if_neg hroom] at hlate
            rcases h with ⟨x, h, h', _⟩ | ⟨a, h, _⟩
            · rw [hlate, Except.error.injEq] at h
              rw [h', ← h]
              exact .here ⟨hfar.1, hfar.2, by omega⟩
            · rw [hlate] at h; cases h
        · refine .later (fun h => hfar ⟨h.1, h.2.1⟩) (hcount _ ?_)
          have hnone : p.builder = none := by
            rw [hbu]
            split
            · rfl
            · rename_i hn
              rw [not_or] at hn
              exact absurd ⟨hn.1, Nat.not_le.1 hn.2⟩ hfar
          rcases h with ⟨x, h, _⟩ | ⟨a, _, h⟩
          · unfold wholeLateBuilder at h
            rw [hnone] at h
            cases h
          · rw [h, hcd, hff]
  · rename_i v hv'
    right
    rw [(whole_early hd hs hv).1]
    exact FirstOf.early hv

/-! ## Streams -/

theorem streamEntry_counted (force : Bool) (e : ZipEntry) : extraCountBytes (streamEntry force e).extraFields =
    namedTotal e (countedAll e.extraFields + (if force then 0 else 20)) := by
  rw [countedAll_eq]
  unfold streamEntry
  simp only
  cases force with
  | true => exact counted_unicode _ _ rfl rfl
  | false =>
    simp only [Bool.false_eq_true, if_false]
    rw [zip64Of, counted_unicode _ _ (pathField_zip64 _ _) (commentField_zip64 _ _), countedAll_append]
    rfl

theorem big_fields (e : ZipEntry) :
    Big e ↔ (Beyond32 e.compressedSize.toNat ∨ Beyond32 e.uncompressedSize.toNat) := by
  unfold Big
  rw [or_comm]
  exact or_congr (beyond_iff rfl) (beyond_iff rfl)

/-- Past the ZIP64 decision. -/
theorem streamZip64_passes (e : ZipEntry) (s : WSt) (h : ¬ (s.zw.forceNoZip64 = true ∧ Big e)) :
    ∃ e' a b s', streamZip64 e s = (.ok (e', a, b), s') := by
  unfold streamZip64
  rw [Wr.bind_ok (Wr.get_def s)]
  cases hf : s.zw.forceNoZip64 with
  | false => exact ⟨_, _, _, _, rfl⟩
  | true =>
    rw [if_neg (by simp), if_neg (fun hb => h ⟨hf, hb.symm⟩)]
    exact ⟨_, _, _, _, rfl⟩

theorem streamWriteLfh_refuses {e : ZipEntry} {s : WSt} {x : Fail} (h : ¬ (s.zw.forceNoZip64 = true ∧ Big e))
    (hx : streamLfh (streamEntry s.zw.forceNoZip64 e) (bothUtf8 e) (streamHeaderSizes s.zw.forceNoZip64 e).1
      (streamHeaderSizes s.zw.forceNoZip64 e).2 = .error x) :
    ∃ s', streamWriteLfh e s = (.error x, s') ∧ s'.zw.writer = s.zw.writer ∧ s'.zw.cdEntries = s.zw.cdEntries := by
  obtain ⟨e', a, b, s', hz⟩ := streamZip64_passes e s h
  obtain ⟨g1, g2, g3, rfl, _⟩ := streamZip64_ok hz
  refine ⟨⟨{ s.zw with isZip64 := s.zw.isZip64 || !s.zw.forceNoZip64 }, s.evs⟩, ?_, rfl, rfl⟩
  · unfold streamWriteLfh
    rw [Wr.bind_ok hz]
    simp only
    apply Wr.bind_err
    rw [g1, utf8_fst, g2, show a = (streamHeaderSizes s.zw.forceNoZip64 e).1 from congrArg Prod.fst g3,
      show b = (streamHeaderSizes s.zw.forceNoZip64 e).2 from congrArg Prod.snd g3, Wr.lift_def, hx]

theorem streamLfh_rows (e : ZipEntry) (u : Bool) (a b : UInt32) :
    (∃ h, streamLfh e u a b = .ok h ∧ extraCountBytes e.extraFields ≤ 65535 ∧ e.filename.basic.length ≤ 65535) ∨
    (streamLfh e u a b = .error (.err .extraFieldTooLarge) ∧ 65535 < extraCountBytes e.extraFields) ∨
    (streamLfh e u a b = .error (.err .fileNameTooLarge) ∧ extraCountBytes e.extraFields ≤ 65535 ∧
      65535 < e.filename.basic.length) := by
  unfold streamLfh tryU16
  by_cases h1 : extraCountBytes e.extraFields < 2 ^ 16
  · rw [if_pos h1]
    by_cases h2 : e.filename.basic.length < 2 ^ 16
    · rw [if_pos h2]; exact Or.inl ⟨_, rfl, by omega, by omega⟩
    · rw [if_neg h2]; exact Or.inr (Or.inr ⟨rfl, by omega, by omega⟩)
  · rw [if_neg h1]; exact Or.inr (Or.inl ⟨rfl, by omega⟩)

/-- The rows that apply before anything is written. -/
def openEarly (force : Bool) (e : ZipEntry) : List (Prop × Fail) :=
  [(force = true ∧ (Beyond32 e.compressedSize.toNat ∨ Beyond32 e.uncompressedSize.toNat), .err (.zip64Needed .largeFile)),
   (65535 < namedTotal e (countedAll e.extraFields + (if force then 0 else 20)), .err .extraFieldTooLarge),
   (65535 < e.filename.basic.length, .err .fileNameTooLarge)]

theorem openStream_early {C : Codec} {e : ZipEntry} {pre : Bool} {zw : ZipWriter} {evs : List Ev} {x : Fail}
    (h : FirstOf (openEarly zw.forceNoZip64 e) (.error x)) :
    (∃ s', openStream C e pre ⟨zw, evs⟩ = (.error x, s') ∧ s'.zw.writer = zw.writer ∧ s'.zw.cdEntries = zw.cdEntries) := by
  by_cases hb : zw.forceNoZip64 = true ∧ Big e
  · have := FirstOf.unique h (.here ⟨hb.1, (big_fields e).1 hb.2⟩)
    rw [Except.error.injEq] at this
    subst this
    exact ⟨_, openStream_force_reports (s := ⟨zw, evs⟩) hb.1 hb.2, rfl, rfl⟩
  · have hstep : ∀ y, streamLfh (streamEntry zw.forceNoZip64 e) (bothUtf8 e) (streamHeaderSizes zw.forceNoZip64 e).1
        (streamHeaderSizes zw.forceNoZip64 e).2 = .error y →
        ∃ s', openStream C e pre ⟨zw, evs⟩ = (.error y, s') ∧ s'.zw.writer = zw.writer ∧ s'.zw.cdEntries = zw.cdEntries := by
      intro y hy
      obtain ⟨s', g1, g2⟩ := streamWriteLfh_refuses (s := ⟨zw, evs⟩) hb hy
      refine ⟨s', ?_, g2⟩
      unfold openStream
      rw [Wr.bind_ok (Wr.get_def _)]
      exact Wr.bind_err g1
    have hn : ¬ (zw.forceNoZip64 = true ∧ (Beyond32 e.compressedSize.toNat ∨ Beyond32 e.uncompressedSize.toNat)) :=
      fun h => hb ⟨h.1, (big_fields e).2 h.2⟩
    have hc := streamEntry_counted zw.forceNoZip64 e
    rcases streamLfh_rows (streamEntry zw.forceNoZip64 e) (bothUtf8 e) (streamHeaderSizes zw.forceNoZip64 e).1
      (streamHeaderSizes zw.forceNoZip64 e).2 with ⟨_, _, h1, h2⟩ | ⟨h1, h2⟩ | ⟨h1, h2, h3⟩
    · rw [hc] at h1
      have := FirstOf.unique h (.later hn (.later (by omega) (.later (by
        rw [(streamLfh_names zw.forceNoZip64).1] at h2; omega) .none)))
      cases this
    · rw [hc] at h2
      have := FirstOf.unique h (.later hn (.here h2))
      rw [Except.error.injEq] at this
      exact this ▸ hstep _ h1
    · rw [hc] at h2
      rw [(streamLfh_names zw.forceNoZip64).1] at h3
      have := FirstOf.unique h (.later hn (.later (by omega) (.here h3)))
      rw [Except.error.injEq] at this
      exact this ▸ hstep _ h1

theorem encFromRaw_rows (C : Codec) (c : Compression) (pre : Bool) :
    (c = .deflate64 ∧ pre = false ∧ encFromRaw C c pre = .error .panic) ∨
    (¬ (c = .deflate64 ∧ pre = false) ∧ ∃ enc, encFromRaw C c pre = .ok enc) := by
  cases pre with
  | true => exact Or.inr ⟨fun h => (by cases h.2), none, rfl⟩
  | false =>
    cases c with
    | deflate64 => exact Or.inl ⟨rfl, rfl, rfl⟩
    | stored => exact Or.inr ⟨fun h => (by cases h.1), _, rfl⟩
    | deflate => exact Or.inr ⟨fun h => (by cases h.1), _, rfl⟩
    | bz => exact Or.inr ⟨fun h => (by cases h.1), _, rfl⟩
    | lzma => exact Or.inr ⟨fun h => (by cases h.1), _, rfl⟩
    | xz => exact Or.inr ⟨fun h => (by cases h.1), _, rfl⟩
    | zstd => exact Or.inr ⟨fun h => (by cases h.1), _, rfl⟩

theorem openStream_rows {C : Codec} {e : ZipEntry} {pre : Bool} {zw : ZipWriter} {evs : List Ev} :
    WInterrupted (openStream C e pre ⟨zw, evs⟩).1 ∨
    FirstOf (openRows zw.forceNoZip64 e pre) ((openStream C e pre ⟨zw, evs⟩).1.map fun _ => ()) := by
  have hrows : openRows zw.forceNoZip64 e pre = openEarly zw.forceNoZip64 e ++
    [(e.compression = .deflate64 ∧ pre = false, .panic)] := rfl
  have hearly : ∀ x, FirstOf (openEarly zw.forceNoZip64 e) (.error x) →
      FirstOf (openRows zw.forceNoZip64 e pre) ((openStream C e pre ⟨zw, evs⟩).1.map fun _ => ()) := by
    intro x h
    obtain ⟨s', g, _⟩ := openStream_early (C := C) (pre := pre) (evs := evs) h
    rw [g, hrows]
    exact FirstOf.early h
  have hc := streamEntry_counted zw.forceNoZip64 e
  by_cases hb : zw.forceNoZip64 = true ∧ Big e
  · exact Or.inr (hearly _ (.here ⟨hb.1, (big_fields e).1 hb.2⟩))
  have hn : ¬ (zw.forceNoZip64 = true ∧ (Beyond32 e.compressedSize.toNat ∨ Beyond32 e.uncompressedSize.toNat)) :=
    fun h => hb ⟨h.1, (big_fields e).2 h.2⟩
  rcases streamLfh_rows (streamEntry zw.forceNoZip64 e) (bothUtf8 e) (streamHeaderSizes zw.forceNoZip64 e).1
    (streamHeaderSizes zw.forceNoZip64 e).2 with ⟨lfh, hl, h1, h2⟩ | ⟨h1, h2⟩ | ⟨h1, h2, h3⟩
  · obtain ⟨extra, hx⟩ := extraAsBytes_ok (streamEntry zw.forceNoZip64 e).extraFields (by omega)
    rw [hc] at h1
    rw [(streamLfh_names zw.forceNoZip64).1] at h2
    have hok : FirstOf (openEarly zw.forceNoZip64 e) (.ok ()) := .later hn (.later (by omega) (.later (by omega) .none))
    rw [hrows]
    -- the calls up to the encoder
    obtain ⟨e', a, b, s5, hz⟩ := streamZip64_passes e ⟨zw, evs⟩ hb
    obtain ⟨g1, g2, g3, rfl, _⟩ := streamZip64_ok hz
    simp only at g1 g3
    obtain ⟨r0, z0, hzz⟩ := Determined.streamZip64 e zw
    obtain ⟨rfl, rfl⟩ := hzz.useOk hz
    simp only at hzz
    have hlfh : streamLfh (utf8WithoutAlternative e').2 (utf8WithoutAlternative e').1 a b = .ok lfh := by
      rw [g1, utf8_fst, g2, show a = (streamHeaderSizes zw.forceNoZip64 e).1 from congrArg Prod.fst g3,
        show b = (streamHeaderSizes zw.forceNoZip64 e).2 from congrArg Prod.snd g3, hl]
    rw [← g1] at hx
    obtain ⟨z1, hw⟩ : ∃ z1, Outcome (streamWriteLfh e) zw (.ok ((utf8WithoutAlternative e').2, lfh)) z1 := by
      refine ⟨((((({ zw with isZip64 := zw.isZip64 || !zw.forceNoZip64 } : ZipWriter).put (le32 LFH_SIGNATURE)).put
        lfh.asSlice).put (utf8WithoutAlternative e').2.filename.basic).put extra), ?_⟩
      unfold streamWriteLfh
      exact hzz.bind ((Outcome.liftOk hlfh).bind (Outcome.writeAll.bind (Outcome.writeAll.bind
        (Outcome.writeAll.bind ((Outcome.liftOk hx).bind (Outcome.writeAll.bind Outcome.pure))))))
    rw [g1] at hw
    rcases encFromRaw_rows C e.compression pre with ⟨d1, d2, d3⟩ | ⟨d1, enc, d3⟩
    · have ho : Outcome (openStream C e pre) zw (.error .panic) z1 := by
        unfold openStream
        refine Outcome.get.bind (hw.bind (Outcome.get.bind (Outcome.bind_error ?_)))
        rw [show (streamEntry zw.forceNoZip64 e).compression = e.compression from rfl, d3]
        exact Outcome.lift
      rcases ho evs with h | h
      · exact Or.inl h
      · right
        rw [h.1]
        exact FirstOf.append hok (.here ⟨d1, d2⟩)
    · obtain ⟨st, ho⟩ : ∃ st, Outcome (openStream C e pre) zw (.ok st) z1 := by
        refine ⟨{ entry := streamEntry zw.forceNoZip64 e, hasher := Hasher.new, lfh := lfh, lfhOffset := zw.writer.offset
                  dataOffset := z1.writer.offset, written := 0, enc, precompressed := pre }, ?_⟩
        unfold openStream
        exact Outcome.get.bind (hw.bind (Outcome.get.bind ((Outcome.liftOk d3).bind Outcome.pure)))
      rcases ho evs with h | h
      · exact Or.inl h
      · right
        rw [h.1]
        exact FirstOf.append hok (.later d1 .none)
  · rw [hc] at h2
    exact Or.inr (hearly _ (.later hn (.here h2)))
  · rw [hc] at h2
    rw [(streamLfh_names zw.forceNoZip64).1] at h3
    exact Or.inr (hearly _ (.later hn (.later (by omega) (.here h3))))

theorem streamSizes_rows {force : Bool} {e f : ZipEntry} {h : LocalFileHeader} {us cs off : Nat} (hu : e.uncompressedSize.toNat = us)
    (hx : e.extraFields = (streamEntry force f).extraFields) :
    (∃ r, streamSizes force e h cs off = .ok r ∧ r.1.comment = e.comment ∧
      ¬ (force = true ∧ (Beyond32 us ∨ Beyond32 cs ∨ Beyond32 off)) ∧
      ¬ (force = false ∧ 65535 < sizedTotal f (namedTotal f (countedAll f.extraFields + 20)))) ∨
    (streamSizes force e h cs off = .error (.err (.zip64Needed .largeFile)) ∧
      (force = true ∧ (Beyond32 us ∨ Beyond32 cs ∨ Beyond32 off))) ∨
    (streamSizes force e h cs off = .error (.err .extraFieldTooLarge) ∧
      (force = false ∧ 65535 < sizedTotal f (namedTotal f (countedAll f.extraFields + 20)))) := by
  unfold streamSizes
  rw [hu]
  cases force with
  | true =>
    rw [if_pos rfl]
    by_cases hb : us > 0xFFFFFFFF ∨ cs > 0xFFFFFFFF ∨ off > 0xFFFFFFFF
    · rw [if_pos hb]; exact Or.inr (Or.inl ⟨rfl, rfl, hb⟩)
    · rw [if_neg hb]; exact Or.inl ⟨_, rfl, rfl, fun h => hb h.2, fun h => by cases h.1⟩
  | false =>
    rw [if_neg (by decide)]
    have hcount : extraCountBytes (putZip64Sizes e.uncompressedSize (UInt64.ofNat cs) (UInt64.ofNat off) e.extraFields) =
        sizedTotal f (namedTotal f (countedAll f.extraFields + 20)) := by
      have hc := streamEntry_counted false f
      rw [countedAll_eq] at hc ⊢
      rw [hx]
      have hz : zip64Field (streamEntry false f).extraFields =
          some ((zip64Field f.extraFields).getD ⟨ID_ZIP64, some f.uncompressedSize, some f.compressedSize, none, none⟩) := by
        unfold streamEntry
        simp only [Bool.false_eq_true, if_false]
        rw [zip64Field_unicode, zip64Of, zip64Field_zip64]
      have := counted_sizes e.uncompressedSize (UInt64.ofNat cs) (UInt64.ofNat off) _ _ hz
      rw [hc] at this
      unfold sizedTotal
      simp only [Bool.false_eq_true, if_false] at this
      cases hf : zip64Field f.extraFields with
      | none =>
        rw [hf] at this
        simp only [Option.getD_none, counted, Option.isSome_some, Option.isSome_none, Bool.false_eq_true, if_false,
          if_true] at this ⊢
        omega
      | some g =>
        rw [hf] at this
        simp only [Option.getD_some] at this ⊢
        omega
    simp only
    rw [hcount]
    unfold tryU16
    by_cases hr : sizedTotal f (namedTotal f (countedAll f.extraFields + 20)) < 2 ^ 16
    · rw [if_pos hr]; exact Or.inl ⟨_, rfl, rfl, fun h => (by cases h.1), fun h => absurd h.2 (by omega)⟩
    · rw [if_neg hr]; exact Or.inr (Or.inr ⟨rfl, trivial, by omega⟩)

/-- Closing a stream, from the state it is in. -/
theorem closeStream_rows {C : Codec} {st : EntryStream C} {zw : ZipWriter} {evs : List Ev} {f : ZipEntry} {us : Nat}
    (hu : st.finalEntry.uncompressedSize.toNat = us) (hx : st.finalEntry.extraFields = (streamEntry zw.forceNoZip64 f).extraFields)
    (hc : st.finalEntry.comment = f.comment) :
    WInterrupted (closeStream st ⟨zw, evs⟩).1 ∨
    FirstOf (closeRows zw.forceNoZip64 st.lfhOffset zw.cdEntries.length f us
      (zw.writer.offset + (encTail st.enc).length - st.dataOffset)) (closeStream st ⟨zw, evs⟩).1 := by
  have henc : Outcome (encClose st.enc) zw (.ok ()) (zw.put (encTail st.enc)) := by
    cases st.enc with
    | none => rw [show encTail (none : Option (EncState C)) = [] from rfl, put_nil]; exact Outcome.pure
    | some s => exact Outcome.writeAll
  have herr : ∀ x, streamSizes zw.forceNoZip64 st.finalEntry st.lfh (zw.writer.offset + (encTail st.enc).length - st.dataOffset)
      st.lfhOffset = .error x → Outcome (closeStream st) zw (.error x) (zw.put (encTail st.enc)) := by
    intro x hs
    unfold closeStream
    refine henc.bind (Outcome.get.bind (Outcome.bind_error ?_))
    rw [← hs]
    exact Outcome.lift
  unfold closeRows
  rcases streamSizes_rows (h := st.lfh) (cs := zw.writer.offset + (encTail st.enc).length - st.dataOffset)
    (off := st.lfhOffset) hu hx with ⟨r, h1, h2, h3, h4⟩ | ⟨h1, h2⟩ | ⟨h1, h2⟩
  · obtain ⟨e', h', cs', us', off'⟩ := r
    simp only at h2
    rw [hc] at h2
    by_cases hcl : e'.comment.basic.length < 2 ^ 16
    · obtain ⟨cdh, hcd⟩ : ∃ cdh, streamCdh e' h' cs' us' off' = .ok cdh := by
        unfold streamCdh tryU16
        rw [if_pos hcl]
        exact ⟨_, rfl⟩
      have ho : Outcome (closeStream st) zw
          (if 0xFFFF < zw.cdEntries.length + 1 ∧ zw.forceNoZip64 = true then .error tooMany else .ok ())
          (pushed ⟨cdh, e'⟩ (((((zw.put (encTail st.enc)).put (le32 DATA_DESCRIPTOR_SIGNATURE)).put (le32 e'.crc32)).put
            (le32 cs')).put (le32 us'))) := by
        unfold closeStream
        refine henc.bind (Outcome.get.bind ((Outcome.liftOk h1).bind (Outcome.writeAll.bind (Outcome.writeAll.bind
          (Outcome.writeAll.bind (Outcome.writeAll.bind ((Outcome.liftOk hcd).bind ?_)))))))
        intro evs
        right
        rw [pushEntry_eq]
        exact ⟨rfl, rfl⟩
      rcases ho evs with h | h
      · exact Or.inl h
      · right
        rw [h.1]
        rw [h2] at hcl
        refine .later h3 (.later h4 (.later (by omega) ?_))
        by_cases hcn : 0xFFFF < zw.cdEntries.length + 1 ∧ zw.forceNoZip64 = true
        · rw [if_pos hcn]; exact .here ⟨hcn.2, by omega⟩
        · rw [if_neg hcn]; exact .later (fun h => hcn ⟨by omega, h.1⟩) .none
    · have hcd : streamCdh e' h' cs' us' off' = .error (.err .commentTooLarge) := by
        unfold streamCdh tryU16
        rw [if_neg hcl]
        rfl
      have ho : Outcome (closeStream st) zw (.error (.err .commentTooLarge))
          (((((zw.put (encTail st.enc)).put (le32 DATA_DESCRIPTOR_SIGNATURE)).put (le32 e'.crc32)).put
            (le32 cs')).put (le32 us')) := by
        unfold closeStream
        refine henc.bind (Outcome.get.bind ((Outcome.liftOk h1).bind (Outcome.writeAll.bind (Outcome.writeAll.bind
          (Outcome.writeAll.bind (Outcome.writeAll.bind (Outcome.bind_error ?_)))))))
        rw [← hcd]
        exact Outcome.lift
      rcases ho evs with h | h
      · exact Or.inl h
      · right
        rw [h.1]
        rw [h2] at hcl
        exact .later h3 (.later h4 (.here (by omega)))
  · rcases herr _ h1 evs with h | h
    · exact Or.inl h
    · right; rw [h.1]; exact .here h2
  · rcases herr _ h1 evs with h | h
    · exact Or.inl h
    · right; rw [h.1]; exact .later (fun h' => by rw [h2.1] at h'; cases h'.1) (.here h2)

/-- What the calls on a stream leave for its closing. -/
theorem stream_stored {C : Codec} {zw zw' : ZipWriter} {e : ZipEntry} {pre : Bool} {evs : List Ev} {acts : List StreamAct}
    {s : WSt} {st st' : EntryStream C} {rs : List (Res Nat)} (h : openStream C e pre ⟨zw, evs⟩ = (.ok st, s))
    (h1 : runActs s.zw st acts = (rs, zw', st')) :
    ∃ stored, StreamStored C e pre acts rs stored ∧
      zw'.writer.offset + (encTail st'.enc).length - st'.dataOffset = stored.length ∧
      zw'.forceNoZip64 = zw.forceNoZip64 ∧ zw'.cdEntries = zw.cdEntries ∧ st'.lfhOffset = zw.writer.offset ∧
      st'.finalEntry = (if pre then streamEntry zw.forceNoZip64 e else
        { streamEntry zw.forceNoZip64 e with
          crc32 := crc32 (accepted acts rs), uncompressedSize := UInt64.ofNat (accepted acts rs).length }) := by
  obtain ⟨lfh, extra, enc, o1, o2, o3, o4, o5, o6⟩ := openStream_ok h
  simp only at o1 o2 o4 o5 o6
  obtain ⟨rs', zw1, st1, em, fed, a1, a2, a3, a4⟩ := runActs_spec acts s.zw st
  rw [h1] at a1
  simp only [Prod.mk.injEq] at a1
  obtain ⟨rfl, rfl, rfl⟩ := a1
  obtain ⟨a5, enc', a6, a7⟩ := a3
  have henc : st'.enc = enc' := by rw [a6]
  have hzw' : zw'.writer.offset = s.zw.writer.offset + em.length := by rw [a5]; rfl
  have hdo : st'.dataOffset = s.zw.writer.offset := by rw [a6, o5]
  refine ⟨em ++ encTail enc', ?_, ?_, ?_, ?_, ?_, ?_⟩
  · have hse : st.enc = enc := by rw [o5]
    rw [hse] at a7
    rcases encFromRaw_ok o3 with ⟨rfl, hp⟩ | ⟨rfl, rfl, p2, p3⟩
    · simp only at a7
      obtain ⟨rfl, rfl⟩ := a7
      have hstored : accepted acts rs ++ encTail (none : Option (EncState C)) = accepted acts rs := by simp [encTail]
      rw [hstored]
      cases pre with
      | true => exact Or.inl ⟨rfl, rfl⟩
      | false => exact Or.inr ⟨rfl, accepted acts rs, Or.inl ⟨hp.resolve_left (by simp), rfl⟩, fun _ => rfl⟩
    · simp only at a7
      obtain ⟨s', rfl, b1⟩ := a7
      obtain ⟨o, b2, b3⟩ := b1.tail rfl
      refine Or.inr ⟨rfl, fed, Or.inr ⟨p2, p3, o, s'.enc, b2, ?_⟩, fun hh => a4 (hh.resolve_left p2)⟩
      simp only [encTail]
      rw [b3]; rfl
  · rw [henc, hzw', hdo, List.length_append]; omega
  · rw [a5, o4]; rfl
  · rw [a5, o4]; rfl
  · rw [a6, o5]
  · unfold EntryStream.finalEntry
    rw [a6, o5]
    simp [crc32]

end AsyncZip
