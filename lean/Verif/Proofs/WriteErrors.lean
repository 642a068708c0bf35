import Verif.Proofs.WritePanic
import Verif.Proofs.WriteSame
/-!
# Which errors the writer reports, and what it has done by then
-/

namespace AsyncZip
open Spec Wr

theorem Created.facts {sink : Sink} {w : ZipWriter} (h : Created sink w) :
    w.writer = ⟨sink, 0⟩ ∧ w.cdEntries = [] ∧ w.commentOpt = none := by
  induction h with
  | new => exact ⟨rfl, rfl, rfl⟩
  | noZip64 _ ih => exact ih
  | zip64 _ ih => exact ih

/-- A call that never touches the sink nor the list of entries. -/
def Quiet {α : Type} (m : Wr α) : Prop := ∀ s, (m s).2.zw.writer = s.zw.writer ∧ (m s).2.zw.cdEntries = s.zw.cdEntries

namespace Quiet

theorem lift {α : Type} {r : Res α} : Quiet (Wr.lift r) := fun _ => ⟨rfl, rfl⟩
theorem get : Quiet Wr.get := fun _ => ⟨rfl, rfl⟩
theorem pure {α : Type} {a : α} : Quiet (pure a : Wr α) := fun _ => ⟨rfl, rfl⟩
theorem fail {α : Type} {e : Fail} : Quiet (Wr.fail e : Wr α) := fun _ => ⟨rfl, rfl⟩
theorem setZip64 : Quiet (modify fun w => { w with isZip64 := true }) := fun _ => ⟨rfl, rfl⟩

theorem bind {α β : Type} {m : Wr α} {f : α → Wr β} (hm : Quiet m) (hf : ∀ a, Quiet (f a)) : Quiet (m >>= f) := by
  intro s
  rw [Wr.bind_def]
  have h := hm s
  cases hr : m s with
  | mk r s' =>
    rw [hr] at h
    cases r with
    | error e => exact h
    | ok a => exact ⟨(hf a s').1.trans h.1, (hf a s').2.trans h.2⟩

theorem ite {α : Type} {p : Prop} [Decidable p] {m n : Wr α} (hm : Quiet m) (hn : Quiet n) :
    Quiet (if p then m else n) := by split <;> assumption

theorem enforceZip64 : Quiet enforceZip64 := bind get fun _ => ite fail setZip64

theorem wholePrepare (C : Codec) (e : ZipEntry) (d : Bytes) (p : Bool) : Quiet (wholePrepare C e d p) :=
  bind lift fun _ => bind (ite pure (bind enforceZip64 fun _ => pure)) fun _ => bind get fun _ =>
    bind (ite pure (bind enforceZip64 fun _ => pure)) fun _ => bind lift fun _ => bind lift fun _ => bind lift fun _ => pure

theorem streamZip64 (e : ZipEntry) : Quiet (streamZip64 e) :=
  bind get fun _ => ite (bind setZip64 fun _ => pure) (ite fail pure)

end Quiet

/-- All errors of a call satisfy `P`. -/
def Errs {α : Type} (P : Fail → Prop) (m : Wr α) : Prop := ∀ s e, (m s).1 = .error e → P e

/-- All errors of a synchronous computation satisfy `P`. -/
def ErrsR {α : Type} (P : Fail → Prop) (r : Res α) : Prop := ∀ e, r = .error e → P e

namespace Errs
variable {P : Fail → Prop}

theorem lift {α : Type} {r : Res α} (h : ErrsR P r) : Errs P (Wr.lift r) := fun _ e he => h e he
theorem get : Errs P Wr.get := fun _ _ h => by cases h
theorem pure {α : Type} {a : α} : Errs P (pure a : Wr α) := fun _ _ h => by cases h
theorem fail {α : Type} {e : Fail} (h : P e) : Errs P (Wr.fail e : Wr α) := fun _ _ h' => by cases h'; exact h
theorem modify {f : ZipWriter → ZipWriter} : Errs P (Wr.modify f) := fun _ _ h => by cases h

theorem bind {α β : Type} {m : Wr α} {f : α → Wr β} (hm : Errs P m) (hf : ∀ a, Errs P (f a)) : Errs P (m >>= f) := by
  intro s e he
  rw [Wr.bind_def] at he
  have h := hm s
  cases hr : m s with
  | mk r s' =>
    rw [hr] at h he
    cases r with
    | error x => exact h e (by cases he; rfl)
    | ok a => exact hf a s' e he

theorem ite {α : Type} {p : Prop} [Decidable p] {m n : Wr α} (hm : Errs P m) (hn : Errs P n) :
    Errs P (if p then m else n) := by split <;> assumption

theorem writeAll (hP : ∀ e, WInterrupted (.error e : Res Unit) → P e) (b : Bytes) : Errs P (writeAll b) := by
  intro s e he
  obtain ⟨x, rest, evs', _, _, h⟩ := writeAll_spec b s
  rcases h with ⟨h, _⟩ | h
  · rw [h] at he; cases he
  · rw [he] at h; exact hP e h

end Errs

theorem errsR_bind {α β : Type} {P : Fail → Prop} {x : Res α} {f : α → Res β} (hx : ErrsR P x) (hf : ∀ a, ErrsR P (f a)) :
    ErrsR P (x >>= f) := by
  intro e he
  cases x with
  | error y => exact hx e (by cases he; rfl)
  | ok a => exact hf a e he

theorem errsR_ok {α : Type} {P : Fail → Prop} {a : α} : ErrsR P (.ok a : Res α) := fun _ h => by cases h
theorem errsR_pure {α : Type} {P : Fail → Prop} {a : α} : ErrsR P (pure a : Res α) := fun _ h => by cases h
theorem errsR_err {α : Type} {P : Fail → Prop} {e : Fail} (h : P e) : ErrsR P (.error e : Res α) :=
  fun _ h' => by cases h'; exact h
theorem errsR_ite {α : Type} {P : Fail → Prop} {p : Prop} [Decidable p] {x y : Res α} (hx : ErrsR P x) (hy : ErrsR P y) :
    ErrsR P (if p then x else y) := by split <;> assumption

theorem errsR_tryU16 {P : Fail → Prop} {n : Nat} {e : ZipError} (h : P (.err e)) : ErrsR P (tryU16 n e) :=
  errsR_ite errsR_ok (errsR_err h)

theorem errsR_infozip (id : UInt16) (f : InfoZipField) : ErrsR (· = .panic) (f.asBytes id) := by
  intro e he
  unfold InfoZipField.asBytes at he
  revert he
  cases f <;> (simp only []; split <;> intro he <;> first | (cases he; rfl) | cases he)

theorem errsR_extra (fs : List ExtraField) : ErrsR (· = .panic) (extraAsBytes fs) := by
  induction fs with
  | nil => exact errsR_ok
  | cons f fs ih =>
    refine errsR_bind ?_ fun a => errsR_bind ih fun b => errsR_pure
    unfold ExtraField.asBytes
    cases f with
    | zip64 f => exact errsR_ok
    | unicodePath f => exact errsR_infozip _ _
    | unicodeComment f => exact errsR_infozip _ _
    | unknown f => exact errsR_ok

/-- The failures a whole entry can still have once it has begun to write; `late` if its offset needs a ZIP64 field of its
own. -/
def LateFailure (late : Prop) (e : Fail) : Prop :=
  WInterrupted (.error e : Res Unit) ∨ e = .panic ∨ (late ∧ (e = .err .extraFieldTooLarge ∨
    e = .err .zip64ExtendedFieldIncomplete)) ∨ e = tooMany

theorem errsR_late (p : Prepared) : ErrsR (LateFailure (p.builder ≠ none)) (wholeLateBuilder p) := by
  unfold wholeLateBuilder
  cases p.builder with
  | none => exact errsR_ok
  | some b =>
    have hb : some b ≠ none := fun h => by cases h
    refine errsR_bind ?_ fun f => errsR_bind (errsR_tryU16 (Or.inr (Or.inr (Or.inl ⟨hb, Or.inl rfl⟩)))) fun n => errsR_pure
    exact errsR_ite (errsR_err (Or.inr (Or.inr (Or.inl ⟨hb, Or.inr rfl⟩)))) errsR_ok

theorem errs_push (l : Prop) (c : CdEntry) : Errs (LateFailure l) (pushEntry c) :=
  Errs.bind Errs.modify fun _ => Errs.bind Errs.get fun _ =>
    Errs.ite (Errs.ite (Errs.fail (Or.inr (Or.inr (Or.inr rfl)))) Errs.modify) Errs.pure

/-- A whole entry fails while it is being prepared, or late. -/
theorem writeWhole_error {C : Codec} {e : ZipEntry} {d : Bytes} {pre : Bool} {s s' : WSt} {x : Fail}
    (h : writeWhole C e d pre s = (.error x, s')) :
    wholePrepare C e d pre s = (.error x, s') ∨
    ∃ p em, PreparedFacts C e d pre s.zw p em ∧ LateFailure (¬ s.zw.writer.offset ≤ 0xFFFFFFFF) x := by
  unfold writeWhole at h
  rcases Wr.bind_error_iff.1 h with h | ⟨p, s1, h1, h⟩
  · exact Or.inl h
  · obtain ⟨em, hp, _⟩ := wholePrepare_ok h1
    refine Or.inr ⟨p, em, hp, ?_⟩
    have hw : ∀ b, Errs (LateFailure (p.builder ≠ none)) (writeAll b) := Errs.writeAll fun _ h => Or.inl h
    have h := congrArg Prod.fst h
    have hl : LateFailure (p.builder ≠ none) x := by
      refine (?_ : Errs (LateFailure (p.builder ≠ none)) _) s1 x h
      exact Errs.bind (hw _) fun _ => Errs.bind (hw _) fun _ => Errs.bind (hw _) fun _ =>
        Errs.bind (Errs.lift fun e he => Or.inr (Or.inl (errsR_extra _ e he))) fun _ => Errs.bind (hw _) fun _ =>
          Errs.bind (hw _) fun _ => Errs.bind (Errs.lift (errsR_late p)) fun _ => errs_push _ _
    refine hl.imp id (Or.imp id (Or.imp (fun h => ⟨?_, h.2⟩) id))
    intro ho
    apply h.1
    rw [hp.builder, if_pos (Or.inr ho)]

/-- What preparing a measured entry decides. -/
def wholeVerdict (force : Bool) (off : Nat) (em : ZipEntry) : Option ZipError :=
  if force = true ∧ (Big em ∨ ¬ off ≤ 0xFFFFFFFF) then some (.zip64Needed .largeFile)
  else if ¬ extraCountBytes (withUnicode em (placed em off).extraFields) < 2 ^ 16 then some .extraFieldTooLarge
  else if ¬ em.filename.basic.length < 2 ^ 16 then some .fileNameTooLarge
  else if ¬ em.comment.basic.length < 2 ^ 16 then some .commentTooLarge
  else none

theorem wholeLfh_error {e : ZipEntry} {u : Bool} {x : Fail} (h : wholeLfh e u = .error x) :
    (¬ extraCountBytes e.extraFields < 2 ^ 16 ∧ x = .err .extraFieldTooLarge) ∨
    (extraCountBytes e.extraFields < 2 ^ 16 ∧ ¬ e.filename.basic.length < 2 ^ 16 ∧ x = .err .fileNameTooLarge) := by
  unfold wholeLfh tryU16 at h
  by_cases h1 : extraCountBytes e.extraFields < 2 ^ 16
  · rw [if_pos h1] at h
    by_cases h2 : e.filename.basic.length < 2 ^ 16
    · rw [if_pos h2] at h; cases h
    · rw [if_neg h2] at h; cases h; exact Or.inr ⟨h1, h2, rfl⟩
  · rw [if_neg h1] at h; cases h; exact Or.inl ⟨h1, rfl⟩

theorem wholeCdh_error {e : ZipEntry} {l : LocalFileHeader} {o : Nat} {x : Fail} (h : wholeCdh e l o = .error x) :
    ¬ e.comment.basic.length < 2 ^ 16 ∧ x = .err .commentTooLarge := by
  unfold wholeCdh tryU16 at h
  by_cases h1 : e.comment.basic.length < 2 ^ 16
  · rw [if_pos h1] at h; cases h
  · rw [if_neg h1] at h; cases h; exact ⟨h1, rfl⟩

theorem enforceZip64_error {s s' : WSt} {x : Fail} (h : enforceZip64 s = (.error x, s')) :
    s.zw.forceNoZip64 = true ∧ x = .err (.zip64Needed .largeFile) := by
  unfold enforceZip64 at h
  rcases Wr.bind_error_iff.1 h with h | ⟨w, s1, h1, h⟩
  · cases h
  · simp only [Wr.get_def, Prod.mk.injEq, Except.ok.injEq] at h1
    obtain ⟨rfl, rfl⟩ := h1
    split at h
    · rename_i hf; cases h; exact ⟨hf, rfl⟩
    · cases h

theorem wholePrepare_error {C : Codec} {e : ZipEntry} {data : Bytes} {pre : Bool} {s s' : WSt} {x : Fail}
    (h : wholePrepare C e data pre s = (.error x, s')) :
    wholeMeasure C e data pre = .error x ∨
    ∃ em d v, wholeMeasure C e data pre = .ok (em, d) ∧ x = .err v ∧
      wholeVerdict s.zw.forceNoZip64 s.zw.writer.offset em = some v := by
  unfold wholePrepare at h
  rcases Wr.bind_error_iff.1 h with h | ⟨⟨em, d⟩, s1, h1, h⟩
  · exact Or.inl (congrArg Prod.fst h)
  right
  simp only [Wr.lift_def, Prod.mk.injEq] at h1
  obtain ⟨hm, rfl⟩ := h1
  refine ⟨em, d, ?_⟩
  rcases Wr.bind_error_iff.1 h with h | ⟨⟨e2, b2⟩, s2, h2, h⟩
  · unfold enforceZip64Sizes at h
    split at h
    · cases h
    · rename_i hb
      have hb : Big em := Classical.not_not.1 fun hn => hb ((big_iff em).1 hn)
      rcases Wr.bind_error_iff.1 h with h | ⟨_, _, _, h⟩
      · obtain ⟨hf, rfl⟩ := enforceZip64_error h
        exact ⟨_, hm, rfl, by rw [wholeVerdict, if_pos ⟨hf, Or.inl hb⟩]⟩
      · cases h
  obtain ⟨hf1, rfl, rfl, rfl⟩ := enforceZip64Sizes_ok h2
  rcases Wr.bind_error_iff.1 h with h | ⟨w, s3, h3, h⟩
  · cases h
  simp only [Wr.get_def, Prod.mk.injEq, Except.ok.injEq] at h3
  obtain ⟨rfl, rfl⟩ := h3
  rcases Wr.bind_error_iff.1 h with h | ⟨⟨b4, o4⟩, s4, h4, h⟩
  · unfold enforceZip64Offset at h
    split at h
    · cases h
    · rename_i ho
      rcases Wr.bind_error_iff.1 h with h | ⟨_, _, _, h⟩
      · obtain ⟨hf, rfl⟩ := enforceZip64_error h
        exact ⟨_, hm, rfl, by rw [wholeVerdict, if_pos ⟨hf, Or.inr ho⟩]⟩
      · cases h
  obtain ⟨hf2, rfl, rfl, rfl⟩ := enforceZip64Offset_ok h4
  have hf : ¬ (s.zw.forceNoZip64 = true ∧ (Big em ∨ ¬ s.zw.writer.offset ≤ 0xFFFFFFFF)) := by
    rintro ⟨hf, hb | ho⟩
    · rw [hf1 hb] at hf; cases hf
    · have := hf2 ho
      simp only at this
      rw [this] at hf; cases hf
  rcases Wr.bind_error_iff.1 h with h | ⟨⟨e5, b5⟩, s5, h5, h⟩
  · rw [placeBuilder_eq] at h; cases h
  simp only [Wr.lift_def, Prod.mk.injEq] at h5
  obtain ⟨h5, rfl⟩ := h5
  rw [placeBuilder_eq, Except.ok.injEq, Prod.mk.injEq] at h5
  obtain ⟨rfl, rfl⟩ := h5
  simp only [] at h
  have hn := placed_names em s.zw.writer.offset
  rw [utf8_snd, withUnicode_congr hn.1 hn.2] at h
  rcases Wr.bind_error_iff.1 h with h | ⟨lf, s6, h6, h⟩
  · have h := congrArg Prod.fst h
    rcases wholeLfh_error h with ⟨g1, rfl⟩ | ⟨g1, g2, rfl⟩
    · exact ⟨_, hm, rfl, by rw [wholeVerdict, if_neg hf, if_pos g1]⟩
    · rw [show ({ placed em s.zw.writer.offset with extraFields := withUnicode em (placed em s.zw.writer.offset).extraFields } :
        ZipEntry).filename = em.filename from hn.1] at g2
      exact ⟨_, hm, rfl, by rw [wholeVerdict, if_neg hf, if_neg (fun h => h g1), if_pos g2]⟩
  simp only [Wr.lift_def, Prod.mk.injEq] at h6
  obtain ⟨h6, rfl⟩ := h6
  obtain ⟨g1, g2, _⟩ := wholeLfh_ok h6
  rcases Wr.bind_error_iff.1 h with h | ⟨cd, s7, h7, h⟩
  · have h := congrArg Prod.fst h
    obtain ⟨g3, rfl⟩ := wholeCdh_error h
    have g1 := g1 ▸ UInt16.toNat_lt lf.fileNameLength
    have g2 := g2 ▸ UInt16.toNat_lt lf.extraFieldLength
    simp only at g1 g2 g3
    rw [hn.1] at g1
    rw [hn.2] at g3
    exact ⟨_, hm, rfl, by rw [wholeVerdict, if_neg hf, if_neg (fun h => h g2), if_neg (fun h => h g1), if_pos g3]⟩
  · cases h

theorem PreparedFacts.verdict {C : Codec} {e : ZipEntry} {data : Bytes} {pre : Bool} {zw : ZipWriter} {p : Prepared}
    {em : ZipEntry} (h : PreparedFacts C e data pre zw p em) :
    wholeVerdict zw.forceNoZip64 zw.writer.offset em = none := by
  have hn := placed_names em zw.writer.offset
  obtain ⟨g1, g2, _⟩ := wholeLfh_ok h.lfh
  have g1 := g1 ▸ UInt16.toNat_lt p.lfh.fileNameLength
  have g2 := g2 ▸ UInt16.toNat_lt p.lfh.extraFieldLength
  have g3 : p.entry.comment.basic.length < 2 ^ 16 := by
    have := h.cdh
    unfold wholeCdh tryU16 at this
    by_cases h1 : p.entry.comment.basic.length < 2 ^ 16
    · exact h1
    · rw [if_neg h1] at this; cases this
  rw [h.entry] at g1 g2 g3
  simp only at g1 g2 g3
  rw [hn.1] at g1
  rw [hn.2] at g3
  have hf : ¬ (zw.forceNoZip64 = true ∧ (Big em ∨ ¬ zw.writer.offset ≤ 0xFFFFFFFF)) := by
    rintro ⟨hf, hb⟩
    rw [h.force hb] at hf; cases hf
  rw [wholeVerdict, if_neg hf, if_neg (fun h => h g2), if_neg (fun h => h g1), if_neg (fun h => h g3)]

/-- An entry that cannot be represented is rejected, whatever the sink does, before anything is written. -/
theorem writeWhole_verdict {C : Codec} {e em : ZipEntry} {data d : Bytes} {pre : Bool} {v : ZipError} (s : WSt)
    (hm : wholeMeasure C e data pre = .ok (em, d)) (hv : wholeVerdict s.zw.forceNoZip64 s.zw.writer.offset em = some v) :
    ∃ s', writeWhole C e data pre s = (.error (.err v), s') ∧ s'.zw.writer = s.zw.writer ∧
      s'.zw.cdEntries = s.zw.cdEntries := by
  have hq := Quiet.wholePrepare C e data pre s
  cases hr : wholePrepare C e data pre s with
  | mk r s' =>
    rw [hr] at hq
    cases r with
    | ok p =>
      obtain ⟨em', hp, _⟩ := wholePrepare_ok hr
      have := hp.measure
      rw [hm] at this
      simp only [Except.ok.injEq, Prod.mk.injEq] at this
      obtain ⟨rfl, _⟩ := this
      rw [hp.verdict] at hv; cases hv
    | error x =>
      refine ⟨s', ?_, hq⟩
      rcases wholePrepare_error hr with h | ⟨em', d', v', h1, rfl, h2⟩
      · rw [hm] at h; cases h
      · rw [hm] at h1
        simp only [Except.ok.injEq, Prod.mk.injEq] at h1
        obtain ⟨rfl, _⟩ := h1
        rw [hv] at h2
        cases h2
        unfold writeWhole
        rw [Wr.bind_err hr]

end AsyncZip
