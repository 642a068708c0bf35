import Verif.Proofs.WriteOps
import Verif.Proofs.Extra
import Verif.Spec.Written
/-!
# What the writer's calls put into the archive
-/

namespace AsyncZip
open Wr Spec

/-! ## Preparing a whole entry -/

/-- A size does not fit 32 bits. -/
def Big (e : ZipEntry) : Prop := e.uncompressedSize > 0xFFFFFFFF ∨ e.compressedSize > 0xFFFFFFFF

instance (e : ZipEntry) : Decidable (Big e) := by unfold Big; infer_instance

/-- The extra fields after the unicode path has been put in. -/
def withPath (n : ZipString) (fs : List ExtraField) : List ExtraField :=
  match n.encoding with
  | .utf8 => if n.raw.isEmpty then fs else putUnicodePath (crc32 n.basic) n.raw fs
  | .raw => fs

/-- The extra fields after the unicode comment has been put in. -/
def withComment (n : ZipString) (fs : List ExtraField) : List ExtraField :=
  match n.encoding with
  | .utf8 => if n.raw.isEmpty then fs else putUnicodeComment (crc32 n.basic) n.raw fs
  | .raw => fs

/-- The extra fields after the unicode fields have been put in. -/
def withUnicode (e : ZipEntry) (fs : List ExtraField) : List ExtraField :=
  if bothUtf8 e then fs else withComment e.comment (withPath e.filename fs)

theorem utf8_fst (e : ZipEntry) : (utf8WithoutAlternative e).1 = bothUtf8 e := by
  unfold utf8WithoutAlternative
  split <;> simp_all

theorem addUnicodePath_eq (e : ZipEntry) :
    addUnicodePath e = { e with extraFields := withPath e.filename e.extraFields } := by
  unfold addUnicodePath withPath
  cases e.filename.encoding <;> simp only
  split <;> rfl

theorem addUnicodeComment_eq (e : ZipEntry) :
    addUnicodeComment e = { e with extraFields := withComment e.comment e.extraFields } := by
  unfold addUnicodeComment withComment
  cases e.comment.encoding <;> simp only
  split <;> rfl

theorem utf8_snd (e : ZipEntry) : (utf8WithoutAlternative e).2 = { e with extraFields := withUnicode e e.extraFields } := by
  unfold withUnicode utf8WithoutAlternative
  split
  · rfl
  · rw [addUnicodeComment_eq, addUnicodePath_eq]

theorem withUnicode_congr {e e' : ZipEntry} (h1 : e.filename = e'.filename) (h2 : e.comment = e'.comment)
    (fs : List ExtraField) : withUnicode e fs = withUnicode e' fs := by
  unfold withUnicode bothUtf8
  rw [h1, h2]

/-- The ZIP64 field with these contents. -/
def zip64Of (u c o : Option UInt64) : ExtraField :=
  .zip64 { headerId := ID_ZIP64, uncompressedSize := u, compressedSize := c, relativeHeaderOffset := o, diskStartNumber := none }

/-- The offset goes into a ZIP64 field. -/
def farField (off : Nat) : Option UInt64 := if off ≤ 0xFFFFFFFF then none else some (UInt64.ofNat off)

/-- The entry with its sizes and ZIP64 field settled. -/
def placed (em : ZipEntry) (off : Nat) : ZipEntry :=
  if Big em then
    { em with
      uncompressedSize := 0xFFFFFFFF, compressedSize := 0xFFFFFFFF
      extraFields := em.extraFields ++ [zip64Of (some em.uncompressedSize) (some em.compressedSize) (farField off)] }
  else em

theorem enforceZip64_ok {s s' : WSt} {u : Unit} (h : enforceZip64 s = (.ok u, s')) :
    s.zw.forceNoZip64 = false ∧ s' = ⟨{ s.zw with isZip64 := true }, s.evs⟩ := by
  unfold enforceZip64 at h
  obtain ⟨w, s1, h1, h2⟩ := Wr.bind_ok_iff.1 h
  simp only [Wr.get_def, Prod.mk.injEq, Except.ok.injEq] at h1
  obtain ⟨rfl, rfl⟩ := h1
  split at h2
  · cases h2
  · rename_i hf
    simp only [Wr.modify_def, Prod.mk.injEq] at h2
    exact ⟨by simpa using hf, h2.2.symm⟩

theorem big_iff (e : ZipEntry) : ¬ Big e ↔ ¬ e.uncompressedSize > 0xFFFFFFFF ∧ ¬ e.compressedSize > 0xFFFFFFFF := by
  unfold Big; exact not_or

theorem enforceZip64Sizes_ok {s s' : WSt} {e e' : ZipEntry} {b : Option Zip64Field}
    (h : enforceZip64Sizes e s = (.ok (e', b), s')) :
    (Big e → s.zw.forceNoZip64 = false) ∧ s' = ⟨{ s.zw with isZip64 := s.zw.isZip64 || decide (Big e) }, s.evs⟩ ∧
    e' = (if Big e then { e with uncompressedSize := 0xFFFFFFFF, compressedSize := 0xFFFFFFFF } else e) ∧
    b = (if Big e then some (Zip64Builder.sizes Zip64Builder.new e.compressedSize e.uncompressedSize) else none) := by
  unfold enforceZip64Sizes at h
  split at h
  · rename_i hb
    have hb := (big_iff e).2 hb
    simp only [Wr.pure_def, Prod.mk.injEq, Except.ok.injEq] at h
    obtain ⟨⟨rfl, rfl⟩, rfl⟩ := h
    simp [hb]
  · rename_i hb
    have hb : Big e := Classical.not_not.1 fun hn => hb ((big_iff e).1 hn)
    obtain ⟨u, s1, h1, h2⟩ := Wr.bind_ok_iff.1 h
    obtain ⟨hf, rfl⟩ := enforceZip64_ok h1
    simp only [Wr.pure_def, Prod.mk.injEq, Except.ok.injEq] at h2
    obtain ⟨⟨rfl, rfl⟩, rfl⟩ := h2
    simp [hb, hf]

theorem enforceZip64Offset_ok {s s' : WSt} {b b' : Option Zip64Field} {o o' : Nat}
    (h : enforceZip64Offset b o s = (.ok (b', o'), s')) :
    (¬ o ≤ 0xFFFFFFFF → s.zw.forceNoZip64 = false) ∧
    s' = ⟨{ s.zw with isZip64 := s.zw.isZip64 || decide (¬ o ≤ 0xFFFFFFFF) }, s.evs⟩ ∧
    b' = (if o ≤ 0xFFFFFFFF then b
      else some (Zip64Builder.relativeHeaderOffset (b.getD Zip64Builder.new) (UInt64.ofNat o))) ∧
    o' = (if o ≤ 0xFFFFFFFF then o else 0xFFFFFFFF) := by
  unfold enforceZip64Offset at h
  split at h
  · rename_i ho
    simp only [Wr.pure_def, Prod.mk.injEq, Except.ok.injEq] at h
    obtain ⟨⟨rfl, rfl⟩, rfl⟩ := h
    simp [ho]
  · rename_i ho
    obtain ⟨u, s1, h1, h2⟩ := Wr.bind_ok_iff.1 h
    obtain ⟨hf, rfl⟩ := enforceZip64_ok h1
    simp only [Wr.pure_def, Prod.mk.injEq, Except.ok.injEq] at h2
    obtain ⟨⟨rfl, rfl⟩, rfl⟩ := h2
    simp [ho, hf]

theorem placeBuilder_eq (em : ZipEntry) (off : Nat) :
    placeBuilder (if Big em then { em with uncompressedSize := 0xFFFFFFFF, compressedSize := 0xFFFFFFFF } else em)
      (if off ≤ 0xFFFFFFFF then
        (if Big em then some (Zip64Builder.sizes Zip64Builder.new em.compressedSize em.uncompressedSize) else none)
       else some (Zip64Builder.relativeHeaderOffset
        ((if Big em then some (Zip64Builder.sizes Zip64Builder.new em.compressedSize em.uncompressedSize) else none).getD
          Zip64Builder.new) (UInt64.ofNat off))) =
      .ok (placed em off, if Big em ∨ off ≤ 0xFFFFFFFF then none
        else some ⟨ID_ZIP64, none, none, some (UInt64.ofNat off), none⟩) := by
  by_cases hb : Big em <;> by_cases ho : off ≤ 0xFFFFFFFF <;>
    simp [placed, hb, ho, placeBuilder, Zip64Builder.eofOnly, Zip64Builder.sizes, Zip64Builder.new,
      Zip64Builder.relativeHeaderOffset, Zip64Builder.build, Zip64Field.contentSize, farField, zip64Of]

/-- Everything a successful preparation settles. -/
structure PreparedFacts (C : Codec) (e : ZipEntry) (data : Bytes) (pre : Bool) (zw : ZipWriter) (p : Prepared)
    (em : ZipEntry) : Prop where
  measure : wholeMeasure C e data pre = .ok (em, p.data)
  force : (Big em ∨ ¬ zw.writer.offset ≤ 0xFFFFFFFF) → zw.forceNoZip64 = false
  entry : p.entry = { placed em zw.writer.offset with
    extraFields := withUnicode em (placed em zw.writer.offset).extraFields }
  lfh : wholeLfh p.entry (bothUtf8 em) = .ok p.lfh
  cdh : wholeCdh p.entry p.lfh (if zw.writer.offset ≤ 0xFFFFFFFF then zw.writer.offset else 0xFFFFFFFF) = .ok p.cdh
  builder : p.builder = if Big em ∨ zw.writer.offset ≤ 0xFFFFFFFF then none
    else some ⟨ID_ZIP64, none, none, some (UInt64.ofNat zw.writer.offset), none⟩

/-- The writer after preparing. -/
def prepZip64 (zw : ZipWriter) (em : ZipEntry) : ZipWriter :=
  { zw with isZip64 := zw.isZip64 || (decide (Big em) || decide (¬ zw.writer.offset ≤ 0xFFFFFFFF)) }

theorem placed_names (em : ZipEntry) (off : Nat) :
    (placed em off).filename = em.filename ∧ (placed em off).comment = em.comment := by
  unfold placed; split <;> exact ⟨rfl, rfl⟩

theorem wholePrepare_ok {C : Codec} {e : ZipEntry} {data : Bytes} {pre : Bool} {s s' : WSt} {p : Prepared}
    (h : wholePrepare C e data pre s = (.ok p, s')) :
    ∃ em, PreparedFacts C e data pre s.zw p em ∧ s' = ⟨prepZip64 s.zw em, s.evs⟩ := by
  unfold wholePrepare at h
  obtain ⟨⟨em, d⟩, s1, h1, h⟩ := Wr.bind_ok_iff.1 h
  simp only [Wr.lift_def, Prod.mk.injEq] at h1
  obtain ⟨hm, rfl⟩ := h1
  obtain ⟨⟨e2, b2⟩, s2, h2, h⟩ := Wr.bind_ok_iff.1 h
  obtain ⟨hf1, rfl, rfl, rfl⟩ := enforceZip64Sizes_ok h2
  obtain ⟨w, s3, h3, h⟩ := Wr.bind_ok_iff.1 h
  simp only [Wr.get_def, Prod.mk.injEq, Except.ok.injEq] at h3
  obtain ⟨rfl, rfl⟩ := h3
  obtain ⟨⟨b4, o4⟩, s4, h4, h⟩ := Wr.bind_ok_iff.1 h
  obtain ⟨hf2, rfl, rfl, rfl⟩ := enforceZip64Offset_ok h4
  obtain ⟨⟨e5, b5⟩, s5, h5, h⟩ := Wr.bind_ok_iff.1 h
  simp only [Wr.lift_def, Prod.mk.injEq] at h5
  obtain ⟨h5, rfl⟩ := h5
  rw [placeBuilder_eq, Except.ok.injEq, Prod.mk.injEq] at h5
  obtain ⟨rfl, rfl⟩ := h5
  simp only [] at h
  obtain ⟨lf, s6, h6, h⟩ := Wr.bind_ok_iff.1 h
  simp only [Wr.lift_def, Prod.mk.injEq] at h6
  obtain ⟨h6, rfl⟩ := h6
  obtain ⟨cd, s7, h7, h⟩ := Wr.bind_ok_iff.1 h
  simp only [Wr.lift_def, Prod.mk.injEq] at h7
  obtain ⟨h7, rfl⟩ := h7
  simp only [Wr.pure_def, Prod.mk.injEq, Except.ok.injEq] at h
  obtain ⟨rfl, rfl⟩ := h
  have hn := placed_names em s.zw.writer.offset
  have hu : bothUtf8 (placed em s.zw.writer.offset) = bothUtf8 em := by
    unfold bothUtf8; rw [hn.1, hn.2]
  rw [utf8_fst, hu] at h6
  refine ⟨em, ⟨hm, ?_, ?_, h6, h7, rfl⟩, ?_⟩
  · rintro (hb | ho)
    · exact hf1 hb
    · exact hf2 ho
  · simp only []
    rw [utf8_snd, withUnicode_congr hn.1 hn.2]
  · simp [prepZip64, Bool.or_assoc]

/-! ## Where "too many files" can come from, and which calls touch the list of entries -/

/-- The error of `pushEntry`. -/
def tooMany : Fail := .err (.zip64Needed .tooManyFiles)

/-- The call never reports too many files. -/
def NoTM {α : Type} (m : Wr α) : Prop := ∀ s, (m s).1 ≠ .error tooMany

/-- The call leaves the list of entries alone. -/
def KeepsCd {α : Type} (m : Wr α) : Prop := ∀ s, (m s).2.zw.cdEntries = s.zw.cdEntries

/-- Own failures other than too many files. -/
def NoTMR {α : Type} (r : Res α) : Prop := r ≠ .error tooMany

theorem NoTM.writeAll (b : Bytes) : NoTM (writeAll b) := by
  intro s h
  obtain ⟨_, _, _, _, _, h3⟩ := writeAll_spec b s
  rw [h] at h3
  rcases h3 with ⟨h3, _⟩ | h3 | ⟨c, h3⟩ | h3 <;> cases h3

theorem NoTM.lift {α : Type} {r : Res α} (h : NoTMR r) : NoTM (lift r) := fun _ => h
theorem NoTM.get : NoTM Wr.get := fun _ h => by cases h
theorem NoTM.pure {α : Type} {a : α} : NoTM (pure a : Wr α) := fun _ h => by cases h
theorem NoTM.fail {α : Type} {e : Fail} (h : e ≠ tooMany) : NoTM (fail e : Wr α) := fun _ h' => by
  rw [Wr.fail_def] at h'
  simp only [Except.error.injEq] at h'
  exact h h'
theorem NoTM.modify {f : ZipWriter → ZipWriter} : NoTM (modify f) := fun _ h => by cases h

theorem NoTM.bind {α β : Type} {m : Wr α} {f : α → Wr β} (hm : NoTM m) (hf : ∀ a, NoTM (f a)) : NoTM (m >>= f) := by
  intro s h
  have := hm s
  rw [Wr.bind_def] at h
  cases hr : m s with
  | mk r s1 =>
    rw [hr] at h this
    cases r with
    | ok a => exact hf a s1 h
    | error e => simp only at h this; rw [Except.error.injEq] at h; exact this (by rw [h])

theorem NoTM.ite {α : Type} {p : Prop} [Decidable p] {m n : Wr α} (hm : NoTM m) (hn : NoTM n) :
    NoTM (if p then m else n) := by split <;> assumption

theorem KeepsCd.writeAll (b : Bytes) : KeepsCd (writeAll b) := by
  intro s
  obtain ⟨_, _, _, _, h, _⟩ := writeAll_spec b s
  rw [h]; rfl

theorem KeepsCd.lift {α : Type} {r : Res α} : KeepsCd (lift r) := fun _ => rfl
theorem KeepsCd.get : KeepsCd Wr.get := fun _ => rfl
theorem KeepsCd.pure {α : Type} {a : α} : KeepsCd (pure a : Wr α) := fun _ => rfl
theorem KeepsCd.fail {α : Type} {e : Fail} : KeepsCd (fail e : Wr α) := fun _ => rfl
theorem KeepsCd.setZip64 : KeepsCd (modify fun w => { w with isZip64 := true }) := fun _ => rfl

theorem KeepsCd.bind {α β : Type} {m : Wr α} {f : α → Wr β} (hm : KeepsCd m) (hf : ∀ a, KeepsCd (f a)) : KeepsCd (m >>= f) := by
  intro s
  have := hm s
  rw [Wr.bind_def]
  cases hr : m s with
  | mk r s1 =>
    rw [hr] at this
    cases r with
    | ok a => exact (hf a s1).trans this
    | error e => exact this

theorem KeepsCd.ite {α : Type} {p : Prop} [Decidable p] {m n : Wr α} (hm : KeepsCd m) (hn : KeepsCd n) :
    KeepsCd (if p then m else n) := by split <;> assumption

/-- Either the entry is listed or the list of entries is unchanged. -/
def ListsOr (m : Wr Unit) : Prop := ∀ s, Listed (m s).1 ∨ (m s).2.zw.cdEntries = s.zw.cdEntries

theorem ListsOr.bind {α : Type} {m : Wr α} {f : α → Wr Unit} (hm : KeepsCd m) (hf : ∀ a, ListsOr (f a)) :
    ListsOr (m >>= f) := by
  intro s
  have := hm s
  rw [Wr.bind_def]
  cases hr : m s with
  | mk r s1 =>
    rw [hr] at this
    cases r with
    | ok a => exact (hf a s1).imp_right fun h => h.trans this
    | error e => exact Or.inr this

/-- A listed outcome of a sequence means the first part succeeded. -/
theorem bind_listed {α : Type} {m : Wr α} {f : α → Wr Unit} {s s' : WSt} {r : Res Unit} (hm : NoTM m)
    (h : (m >>= f) s = (r, s')) (hl : Listed r) : ∃ a s1, m s = (.ok a, s1) ∧ f a s1 = (r, s') := by
  have := hm s
  rw [Wr.bind_def] at h
  cases hr : m s with
  | mk x s1 =>
    rw [hr] at h this
    cases x with
    | ok a => exact ⟨a, s1, rfl, h⟩
    | error e =>
      simp only [Prod.mk.injEq] at h
      rcases hl with hl | hl
      · rw [hl] at h; exact absurd h.1 (by simp)
      · rw [hl, Except.error.injEq] at h
        exact absurd (by rw [h.1]; rfl) this

/-- What `pushEntry` leaves. -/
def pushed (c : CdEntry) (zw : ZipWriter) : ZipWriter :=
  { zw with
    cdEntries := zw.cdEntries ++ [c]
    isZip64 := zw.isZip64 || (decide (0xFFFF < zw.cdEntries.length + 1) && !zw.forceNoZip64) }

theorem pushEntry_eq (c : CdEntry) (s : WSt) : pushEntry c s =
    (if 0xFFFF < s.zw.cdEntries.length + 1 ∧ s.zw.forceNoZip64 = true then .error tooMany else .ok (),
      ⟨pushed c s.zw, s.evs⟩) := by
  unfold pushEntry
  rw [Wr.bind_ok (Wr.modify_def _ _), Wr.bind_ok (Wr.get_def _)]
  have hl : (s.zw.cdEntries ++ [c]).length = s.zw.cdEntries.length + 1 := by simp
  show (if (s.zw.cdEntries ++ [c]).length > 0xFFFF then
    (if s.zw.forceNoZip64 = true then Wr.fail (.err (.zip64Needed .tooManyFiles))
      else Wr.modify fun w => { w with isZip64 := true })
    else (pure () : Wr Unit)) ⟨{ s.zw with cdEntries := s.zw.cdEntries ++ [c] }, s.evs⟩ = _
  rw [hl]
  by_cases h1 : 0xFFFF < s.zw.cdEntries.length + 1
  · by_cases h2 : s.zw.forceNoZip64 = true
    · rw [if_pos (show s.zw.cdEntries.length + 1 > 0xFFFF from h1), if_pos h2, if_pos ⟨h1, h2⟩]
      simp [pushed, tooMany, h2]
    · rw [if_pos (show s.zw.cdEntries.length + 1 > 0xFFFF from h1), if_neg h2, if_neg (fun h => h2 h.2)]
      simp [pushed, h1, h2]
  · rw [if_neg (show ¬ s.zw.cdEntries.length + 1 > 0xFFFF from h1), if_neg (fun h => h1 h.1)]
    simp [pushed, h1]

theorem pushEntry_listed (c : CdEntry) (s : WSt) : Listed (pushEntry c s).1 := by
  rw [pushEntry_eq]
  split
  · exact Or.inr rfl
  · exact Or.inl rfl

theorem ListsOr.pushEntry (c : CdEntry) : ListsOr (pushEntry c) := fun s => Or.inl (pushEntry_listed c s)

theorem noTMR_bind {α β : Type} {x : Res α} {f : α → Res β} (hx : NoTMR x) (hf : ∀ a, NoTMR (f a)) : NoTMR (x >>= f) := by
  cases x with
  | ok a => exact hf a
  | error e => intro h; rw [res_error_bind, Except.error.injEq] at h; exact hx (by rw [h])

theorem noTMR_ok {α : Type} {a : α} : NoTMR (.ok a : Res α) := fun h => by cases h

theorem noTMR_pure {α : Type} {a : α} : NoTMR (pure a : Res α) := fun h => by cases h

theorem noTMR_ite {α : Type} {p : Prop} [Decidable p] {x y : Res α} (hx : NoTMR x) (hy : NoTMR y) :
    NoTMR (if p then x else y) := by split <;> assumption

theorem noTMR_err {α : Type} {e : Fail} (h : e ≠ tooMany) : NoTMR (.error e : Res α) := fun h' => h (by cases h'; rfl)

theorem noTMR_tryU16 (n : Nat) (e : ZipError) (h : Fail.err e ≠ tooMany) : NoTMR (tryU16 n e) :=
  noTMR_ite noTMR_ok (noTMR_err h)

theorem noTMR_compress (C : Codec) (e : ZipEntry) (d : Bytes) : NoTMR (compress C e d) := by
  unfold compress
  split
  · exact noTMR_err (by decide)
  · exact noTMR_err (by decide)
  · exact noTMR_ok

theorem noTMR_measure (C : Codec) (e : ZipEntry) (d : Bytes) (p : Bool) : NoTMR (wholeMeasure C e d p) :=
  noTMR_ite noTMR_ok (noTMR_bind (noTMR_ite noTMR_ok (noTMR_compress _ _ _)) fun _ => noTMR_pure)

theorem noTMR_build (f : Zip64Field) : NoTMR (Zip64Builder.build f) := noTMR_ite (noTMR_err (by decide)) noTMR_ok

theorem noTMR_place (e : ZipEntry) (b : Option Zip64Field) : NoTMR (placeBuilder e b) := by
  cases b with
  | none => exact noTMR_ok
  | some b => exact noTMR_ite noTMR_ok (noTMR_bind (noTMR_build _) fun _ => noTMR_pure)

theorem noTMR_infozip (id : UInt16) (f : InfoZipField) : NoTMR (f.asBytes id) := by
  cases f <;> exact noTMR_ite noTMR_ok (noTMR_err (by decide))

theorem noTMR_field (f : ExtraField) : NoTMR f.asBytes := by
  cases f with
  | zip64 f => exact noTMR_ok
  | unknown f => exact noTMR_ok
  | unicodeComment f => exact noTMR_infozip _ f
  | unicodePath f => exact noTMR_infozip _ f

theorem noTMR_extra (fs : List ExtraField) : NoTMR (extraAsBytes fs) := by
  induction fs with
  | nil => exact noTMR_ok
  | cons f fs ih => exact noTMR_bind (noTMR_field f) fun _ => noTMR_bind ih fun _ => noTMR_pure

theorem noTMR_late (p : Prepared) : NoTMR (wholeLateBuilder p) := by
  unfold wholeLateBuilder
  split
  · exact noTMR_ok
  · exact noTMR_bind (noTMR_build _) fun _ => noTMR_bind (noTMR_tryU16 _ _ (by decide)) fun _ => noTMR_pure

theorem NoTM.enforceZip64 : NoTM enforceZip64 := bind get fun _ => ite (fail (by decide)) modify

theorem NoTM.wholePrepare (C : Codec) (e : ZipEntry) (d : Bytes) (p : Bool) : NoTM (wholePrepare C e d p) :=
  bind (lift (noTMR_measure _ _ _ _)) fun _ => bind (ite pure (bind enforceZip64 fun _ => pure)) fun _ => bind get fun _ =>
    bind (ite pure (bind enforceZip64 fun _ => pure)) fun _ => bind (lift (noTMR_place _ _)) fun _ =>
    bind (lift (noTMR_bind (noTMR_tryU16 _ _ (by decide)) fun _ => noTMR_bind (noTMR_tryU16 _ _ (by decide)) fun _ =>
      noTMR_pure)) fun _ =>
    bind (lift (noTMR_bind (noTMR_tryU16 _ _ (by decide)) fun _ => noTMR_pure)) fun _ => pure

theorem KeepsCd.enforceZip64 : KeepsCd enforceZip64 := bind get fun _ => ite fail setZip64

theorem KeepsCd.wholePrepare (C : Codec) (e : ZipEntry) (d : Bytes) (p : Bool) : KeepsCd (wholePrepare C e d p) :=
  bind lift fun _ => bind (ite pure (bind enforceZip64 fun _ => pure)) fun _ => bind get fun _ =>
    bind (ite pure (bind enforceZip64 fun _ => pure)) fun _ => bind lift fun _ => bind lift fun _ => bind lift fun _ => pure

theorem ListsOr.writeWhole (C : Codec) (e : ZipEntry) (d : Bytes) (p : Bool) : ListsOr (writeWhole C e d p) :=
  bind (KeepsCd.wholePrepare _ _ _ _) fun _ => bind (KeepsCd.writeAll _) fun _ => bind (KeepsCd.writeAll _) fun _ =>
    bind (KeepsCd.writeAll _) fun _ => bind KeepsCd.lift fun _ => bind (KeepsCd.writeAll _) fun _ => bind (KeepsCd.writeAll _) fun _ =>
    bind KeepsCd.lift fun _ => ListsOr.pushEntry _

theorem NoTM.streamZip64 (e : ZipEntry) : NoTM (streamZip64 e) :=
  bind get fun _ => ite (bind modify fun _ => pure) (ite (fail (by decide)) pure)

theorem KeepsCd.openStream (C : Codec) (e : ZipEntry) (p : Bool) : KeepsCd (openStream C e p) :=
  bind get fun _ => bind (bind (bind get fun _ => ite (bind setZip64 fun _ => pure) (ite fail pure)) fun _ => bind lift fun _ =>
    bind (writeAll _) fun _ => bind (writeAll _) fun _ => bind (writeAll _) fun _ => bind lift fun _ =>
    bind (writeAll _) fun _ => pure) fun _ => bind get fun _ => bind lift fun _ => pure

theorem KeepsCd.encClose {C : Codec} (s : Option (EncState C)) : KeepsCd (encClose s) := by
  cases s with
  | none => exact pure
  | some s => exact writeAll _

theorem NoTM.encClose {C : Codec} (s : Option (EncState C)) : NoTM (encClose s) := by
  cases s with
  | none => exact pure
  | some s => exact writeAll _

theorem noTMR_streamSizes (f : Bool) (e : ZipEntry) (h : LocalFileHeader) (a b : Nat) : NoTMR (streamSizes f e h a b) :=
  noTMR_ite (noTMR_ite (noTMR_err (by decide)) noTMR_ok) (noTMR_bind (noTMR_tryU16 _ _ (by decide)) fun _ => noTMR_pure)

theorem ListsOr.closeStream {C : Codec} (st : EntryStream C) : ListsOr (closeStream st) :=
  bind (KeepsCd.encClose _) fun _ => bind KeepsCd.get fun _ => bind KeepsCd.lift fun _ => bind (KeepsCd.writeAll _) fun _ =>
    bind (KeepsCd.writeAll _) fun _ => bind (KeepsCd.writeAll _) fun _ => bind (KeepsCd.writeAll _) fun _ =>
    bind KeepsCd.lift fun _ => ListsOr.pushEntry _

/-! ## What a listed call did -/

theorem writeAll_ok {b : Bytes} {s s' : WSt} {u : Unit} (h : writeAll b s = (.ok u, s')) : s'.zw = s.zw.put b :=
  ((Outcome.writeAll (buf := b) (zw := s.zw)).useOk (evs := s.evs) h).2

theorem wr_lift_ok {α : Type} {r : Res α} {a : α} {s s' : WSt} (h : lift r s = (.ok a, s')) : r = .ok a ∧ s' = s := by
  simp only [Wr.lift_def, Prod.mk.injEq] at h
  exact ⟨h.1, h.2.symm⟩

theorem get_ok {w : ZipWriter} {s s' : WSt} (h : Wr.get s = (.ok w, s')) : w = s.zw ∧ s' = s := by
  simp only [Wr.get_def, Prod.mk.injEq, Except.ok.injEq] at h
  exact ⟨h.1.symm, h.2.symm⟩

/-- A local file header with what follows it. -/
def localBytes (h : LocalFileHeader) (name extra data : Bytes) : Bytes :=
  le32 LFH_SIGNATURE ++ (h.asSlice ++ (name ++ (extra ++ data)))

theorem writeWhole_listed {C : Codec} {e : ZipEntry} {data : Bytes} {pre : Bool} {s s' : WSt} {r : Res Unit}
    (h : writeWhole C e data pre s = (r, s')) (hl : Listed r) :
    ∃ p em extra c, PreparedFacts C e data pre s.zw p em ∧ extraAsBytes p.entry.extraFields = .ok extra ∧
      wholeLateBuilder p = .ok (c.entry, c.header) ∧
      s'.zw = pushed c ((prepZip64 s.zw em).put (localBytes p.lfh p.entry.filename.basic extra p.data)) := by
  unfold writeWhole at h
  obtain ⟨p, s1, h1, h⟩ := bind_listed (NoTM.wholePrepare _ _ _ _) h hl
  obtain ⟨em, hp, rfl⟩ := wholePrepare_ok h1
  obtain ⟨_, s2, h2, h⟩ := bind_listed (NoTM.writeAll _) h hl
  obtain ⟨_, s3, h3, h⟩ := bind_listed (NoTM.writeAll _) h hl
  obtain ⟨_, s4, h4, h⟩ := bind_listed (NoTM.writeAll _) h hl
  obtain ⟨extra, s5, h5, h⟩ := bind_listed (NoTM.lift (noTMR_extra _)) h hl
  obtain ⟨_, s6, h6, h⟩ := bind_listed (NoTM.writeAll _) h hl
  obtain ⟨_, s7, h7, h⟩ := bind_listed (NoTM.writeAll _) h hl
  obtain ⟨⟨en, hd⟩, s8, h8, h9⟩ := bind_listed (NoTM.lift (noTMR_late _)) h hl
  obtain ⟨g5, rfl⟩ := wr_lift_ok h5
  obtain ⟨g8, rfl⟩ := wr_lift_ok h8
  have z : s8.zw = ((prepZip64 s.zw em).put (localBytes p.lfh p.entry.filename.basic extra p.data)) := by
    rw [writeAll_ok h7, writeAll_ok h6, writeAll_ok h4, writeAll_ok h3, writeAll_ok h2]
    simp only [put_put, localBytes, List.append_assoc]
  simp only [] at h9
  rw [pushEntry_eq, Prod.mk.injEq] at h9
  refine ⟨p, em, extra, ⟨hd, en⟩, hp, g5, g8, ?_⟩
  rw [← h9.2, z]

/-- The entry of a stream after its header has been written. -/
def streamEntry (force : Bool) (e : ZipEntry) : ZipEntry :=
  let fs := if force then e.extraFields else e.extraFields ++ [zip64Of (some e.uncompressedSize) (some e.compressedSize) none]
  { e with extraFields := withUnicode e fs }

/-- The sizes (compressed, uncompressed) in the local header of a stream. -/
def streamHeaderSizes (force : Bool) (e : ZipEntry) : UInt32 × UInt32 :=
  if force then (e.compressedSize.toUInt32, e.uncompressedSize.toUInt32) else (NON_ZIP64_MAX_SIZE, NON_ZIP64_MAX_SIZE)

theorem streamZip64_ok {e e' : ZipEntry} {a b : UInt32} {s s' : WSt} (h : streamZip64 e s = (.ok (e', a, b), s')) :
    (utf8WithoutAlternative e').2 = streamEntry s.zw.forceNoZip64 e ∧ bothUtf8 e' = bothUtf8 e ∧
    (a, b) = streamHeaderSizes s.zw.forceNoZip64 e ∧
    s' = ⟨{ s.zw with isZip64 := s.zw.isZip64 || !s.zw.forceNoZip64 }, s.evs⟩ ∧
    (s.zw.forceNoZip64 = true → e.compressedSize ≤ 0xFFFFFFFF ∧ e.uncompressedSize ≤ 0xFFFFFFFF) := by
  unfold streamZip64 at h
  obtain ⟨w, s1, h1, h2⟩ := Wr.bind_ok_iff.1 h
  obtain ⟨rfl, rfl⟩ := get_ok h1
  split at h2
  · rename_i hf
    have hf : s1.zw.forceNoZip64 = false := by simpa using hf
    simp only [Wr.bind_def, Wr.modify_def, Wr.pure_def, Prod.mk.injEq, Except.ok.injEq] at h2
    obtain ⟨⟨rfl, rfl, rfl⟩, rfl⟩ := h2
    rw [utf8_snd]
    refine ⟨?_, rfl, ?_, ?_, ?_⟩
    · unfold streamEntry; rw [hf]; rfl
    · simp [streamHeaderSizes, hf]
    · simp [hf]
    · simp [hf]
  · rename_i hf
    have hf : s1.zw.forceNoZip64 = true := by simpa using hf
    split at h2
    · cases h2
    · rename_i hb
      simp only [Wr.pure_def, Prod.mk.injEq, Except.ok.injEq] at h2
      obtain ⟨⟨rfl, rfl, rfl⟩, rfl⟩ := h2
      rw [utf8_snd]
      refine ⟨?_, rfl, ?_, ?_, ?_⟩
      · unfold streamEntry; rw [hf]; rfl
      · simp [streamHeaderSizes, hf]
      · rw [hf]; simp
      · intro _
        rw [not_or] at hb
        exact ⟨by simpa using hb.1, by simpa using hb.2⟩

/-- Everything opening a stream settles. -/
theorem openStream_ok {C : Codec} {e : ZipEntry} {pre : Bool} {s s' : WSt} {st : EntryStream C}
    (h : openStream C e pre s = (.ok st, s')) :
    ∃ h extra enc, streamLfh (streamEntry s.zw.forceNoZip64 e) (bothUtf8 e) (streamHeaderSizes s.zw.forceNoZip64 e).1
        (streamHeaderSizes s.zw.forceNoZip64 e).2 = .ok h ∧
      extraAsBytes (streamEntry s.zw.forceNoZip64 e).extraFields = .ok extra ∧
      encFromRaw C e.compression pre = .ok enc ∧
      s'.zw = ({ s.zw with isZip64 := s.zw.isZip64 || !s.zw.forceNoZip64 } : ZipWriter).put
        (localBytes h e.filename.basic extra []) ∧
      st = { entry := streamEntry s.zw.forceNoZip64 e, hasher := Hasher.new, lfh := h, lfhOffset := s.zw.writer.offset
             dataOffset := s'.zw.writer.offset, written := 0, enc, precompressed := pre } ∧
      (s.zw.forceNoZip64 = true → e.compressedSize ≤ 0xFFFFFFFF ∧ e.uncompressedSize ≤ 0xFFFFFFFF) := by
  unfold openStream at h
  obtain ⟨w, s1, h1, h⟩ := Wr.bind_ok_iff.1 h
  obtain ⟨rfl, rfl⟩ := get_ok h1
  obtain ⟨⟨e1, hd⟩, s2, h2, h⟩ := Wr.bind_ok_iff.1 h
  obtain ⟨w', s3, h3, h⟩ := Wr.bind_ok_iff.1 h
  obtain ⟨rfl, rfl⟩ := get_ok h3
  obtain ⟨enc, s4, h4, h⟩ := Wr.bind_ok_iff.1 h
  obtain ⟨g4, rfl⟩ := wr_lift_ok h4
  simp only [Wr.pure_def, Prod.mk.injEq, Except.ok.injEq] at h
  obtain ⟨rfl, rfl⟩ := h
  unfold streamWriteLfh at h2
  obtain ⟨⟨e5, a, b⟩, s5, h5, p1⟩ := Wr.bind_ok_iff.1 h2
  obtain ⟨q1, q2, q3, rfl, q5⟩ := streamZip64_ok h5
  simp only [] at p1
  rw [Prod.mk.injEq] at q3
  obtain ⟨hd', s6, h6, p2⟩ := Wr.bind_ok_iff.1 p1
  obtain ⟨g6, rfl⟩ := wr_lift_ok h6
  obtain ⟨_, s7, h7, p3⟩ := Wr.bind_ok_iff.1 p2
  obtain ⟨_, s8, h8, p4⟩ := Wr.bind_ok_iff.1 p3
  obtain ⟨_, s9, h9, p5⟩ := Wr.bind_ok_iff.1 p4
  obtain ⟨extra, s10, h10, p6⟩ := Wr.bind_ok_iff.1 p5
  obtain ⟨g10, rfl⟩ := wr_lift_ok h10
  obtain ⟨_, s11, h11, p7⟩ := Wr.bind_ok_iff.1 p6
  simp only [Wr.pure_def, Prod.mk.injEq, Except.ok.injEq] at p7
  obtain ⟨⟨rfl, rfl⟩, rfl⟩ := p7
  rw [q1] at g6 g10 g4 h9 ⊢
  rw [utf8_fst, q2, q3.1, q3.2] at g6
  refine ⟨hd', extra, enc, g6, g10, g4, ?_, rfl, q5⟩
  rw [writeAll_ok h11, writeAll_ok h9, writeAll_ok h8, writeAll_ok h7]
  simp only [put_put, localBytes, List.append_assoc, List.append_nil]
  rfl

/-- What closing an encoder emits. -/
def encTail {C : Codec} : Option (EncState C) → Bytes
  | none => []
  | some s => s.tail

theorem encClose_ok {C : Codec} {o : Option (EncState C)} {s s' : WSt} {u : Unit} (h : encClose o s = (.ok u, s')) :
    s'.zw = s.zw.put (encTail o) := by
  cases o with
  | none =>
    simp only [encClose, Wr.pure_def, Prod.mk.injEq] at h
    rw [← h.2]
    exact (put_nil _).symm
  | some st => exact writeAll_ok h

/-- The descriptor after a stream's data. -/
def descriptorBytes (crc cs us : UInt32) : Bytes := le32 DATA_DESCRIPTOR_SIGNATURE ++ (le32 crc ++ (le32 cs ++ le32 us))

theorem closeStream_listed {C : Codec} {st : EntryStream C} {s s' : WSt} {r : Res Unit}
    (h : closeStream st s = (r, s')) (hl : Listed r) :
    ∃ e hd cs us off cdh, streamSizes s.zw.forceNoZip64 st.finalEntry st.lfh
        (s.zw.writer.offset + (encTail st.enc).length - st.dataOffset) st.lfhOffset = .ok (e, hd, cs, us, off) ∧
      streamCdh e hd cs us off = .ok cdh ∧
      s'.zw = pushed ⟨cdh, e⟩ (s.zw.put (encTail st.enc ++ descriptorBytes e.crc32 cs us)) := by
  unfold closeStream at h
  obtain ⟨_, s1, h1, q1⟩ := bind_listed (NoTM.encClose _) h hl
  obtain ⟨w, s2, h2, q2⟩ := bind_listed NoTM.get q1 hl
  obtain ⟨rfl, rfl⟩ := get_ok h2
  obtain ⟨⟨e, hd, cs, us, off⟩, s3, h3, q3⟩ := bind_listed (NoTM.lift (noTMR_streamSizes _ _ _ _ _)) q2 hl
  obtain ⟨g3, rfl⟩ := wr_lift_ok h3
  simp only [] at q3
  obtain ⟨_, s4, h4, q4⟩ := bind_listed (NoTM.writeAll _) q3 hl
  obtain ⟨_, s5, h5, q5⟩ := bind_listed (NoTM.writeAll _) q4 hl
  obtain ⟨_, s6, h6, q6⟩ := bind_listed (NoTM.writeAll _) q5 hl
  obtain ⟨_, s7, h7, q7⟩ := bind_listed (NoTM.writeAll _) q6 hl
  obtain ⟨cdh, s8, h8, h9⟩ := bind_listed
    (NoTM.lift (noTMR_bind (noTMR_tryU16 _ _ (by decide)) fun _ => noTMR_pure)) q7 hl
  obtain ⟨g8, rfl⟩ := wr_lift_ok h8
  rw [pushEntry_eq, Prod.mk.injEq] at h9
  have z1 := encClose_ok h1
  rw [z1] at g3
  refine ⟨e, hd, cs, us, off, cdh, g3, g8, ?_⟩
  rw [← h9.2, writeAll_ok h7, writeAll_ok h6, writeAll_ok h5, writeAll_ok h4, z1]
  simp only [put_put, descriptorBytes, List.append_assoc]

end AsyncZip
