import Verif.Proofs.WriteStream
/-!
# Whole histories of calls: growth, schedules, completion
-/

namespace AsyncZip
open Wr Spec

/-- `b` comes from `a` by appending to the sink and to the list of entries, and flushing at most at the caller's request. -/
structure ExtF (k : Nat) (a b : ZipWriter) : Prop where
  bytes : ∃ x, b.writer.sink.bytes = a.writer.sink.bytes ++ x ∧ b.writer.offset = a.writer.offset + x.length
  closes : b.writer.sink.closes = a.writer.sink.closes
  flushes : b.writer.sink.flushes = a.writer.sink.flushes + k
  entries : a.cdEntries <+: b.cdEntries
  force : b.forceNoZip64 = a.forceNoZip64
  zip64 : a.isZip64 = true → b.isZip64 = true

theorem Ext.extF {a b : ZipWriter} (h : Ext a b) : ExtF 0 a b :=
  ⟨h.bytes, h.closes, h.flushes, h.entries, h.force, h.zip64⟩

theorem ExtF.trans {j k : Nat} {a b c : ZipWriter} (h : ExtF j a b) (h' : ExtF k b c) : ExtF (j + k) a c := by
  obtain ⟨x, hx, hx'⟩ := h.bytes
  obtain ⟨y, hy, hy'⟩ := h'.bytes
  refine ⟨⟨x ++ y, by rw [hy, hx, List.append_assoc], by rw [hy', hx', List.length_append]; omega⟩,
    h'.closes.trans h.closes, by rw [h'.flushes, h.flushes, Nat.add_assoc], h.entries.trans h'.entries,
    h'.force.trans h.force, fun hz => h'.zip64 (h.zip64 hz)⟩

theorem StreamStep.extF {C : Codec} {zw zw' : ZipWriter} {st st' : EntryStream C} {d e f : Bytes} {k : Nat}
    (h : StreamStep C zw st d e f k zw' st') : ExtF k zw zw' := by
  rw [h.writer]
  exact ⟨⟨e, rfl, rfl⟩, rfl, rfl, List.prefix_rfl, rfl, id⟩

theorem flushCount_nil (acts : List StreamAct) : flushCount acts [] = 0 := by
  cases acts with
  | nil => rfl
  | cons a acts => cases a <;> rfl

theorem runOp_open_error {C : Codec} {zw : ZipWriter} {e : ZipEntry} {pre : Bool} {evs : List Ev} {acts : List StreamAct}
    {fin : StreamEnd} {x : Fail} {s : WSt} (h : openStream C e pre ⟨zw, evs⟩ = (.error x, s)) :
    runOp C zw (.stream e pre evs acts fin) = (.stream (.error x) [] none, s.zw) := by
  simp only [runOp, h]

theorem runOp_abandon {C : Codec} {zw zw' : ZipWriter} {e : ZipEntry} {pre : Bool} {evs : List Ev} {acts : List StreamAct}
    {s : WSt} {st st' : EntryStream C} {rs : List (Res Nat)} (h : openStream C e pre ⟨zw, evs⟩ = (.ok st, s))
    (h1 : runActs s.zw st acts = (rs, zw', st')) :
    runOp C zw (.stream e pre evs acts .abandon) = (.stream (.ok ()) rs none, zw') := by
  simp only [runOp, h, h1]

theorem runOp_close {C : Codec} {zw zw' : ZipWriter} {e : ZipEntry} {pre : Bool} {evs evs' : List Ev}
    {acts : List StreamAct} {s t : WSt} {st st' : EntryStream C} {rs : List (Res Nat)} {r : Res Unit}
    (h : openStream C e pre ⟨zw, evs⟩ = (.ok st, s)) (h1 : runActs s.zw st acts = (rs, zw', st'))
    (h2 : closeStream st' ⟨zw', evs'⟩ = (r, t)) :
    runOp C zw (.stream e pre evs acts (.close evs')) = (.stream (.ok ()) rs (some r), t.zw) := by
  simp only [runOp, h, h1, h2]

theorem runOp_ext (C : Codec) (zw : ZipWriter) (op : Op) : ExtF (opFlushes op (runOp C zw op).1) zw (runOp C zw op).2 := by
  cases op with
  | whole e data pre evs => exact (Grows.writeWhole C e data pre ⟨zw, evs⟩).extF
  | comment c => exact ⟨⟨[], by simp [runOp, ZipWriter.setComment], rfl⟩, rfl, rfl, List.prefix_rfl, rfl, id⟩
  | stream e pre evs acts fin =>
    have ho := (Grows.openStream C e pre ⟨zw, evs⟩).extF
    cases h : openStream C e pre ⟨zw, evs⟩ with
    | mk r s =>
      rw [h] at ho
      cases r with
      | error x =>
        rw [runOp_open_error h]
        simp only [opFlushes, flushCount_nil]
        exact ho
      | ok st =>
        obtain ⟨rs, zw', st', em, f, h1, hl, h2, h3⟩ := runActs_spec acts s.zw st
        have hs := ho.trans h2.extF
        rw [Nat.zero_add] at hs
        cases fin with
        | abandon =>
          rw [runOp_abandon h h1]
          exact hs
        | close evs' =>
          have hc := (Grows.closeStream st' ⟨zw', evs'⟩).extF
          rw [runOp_close h h1 (t := (closeStream st' ⟨zw', evs'⟩).2) (r := (closeStream st' ⟨zw', evs'⟩).1) rfl]
          exact hs.trans hc

theorem runOps_ext (C : Codec) (ops : List Op) : ∀ zw : ZipWriter,
    ExtF (opsFlushes ops (runOps C zw ops).1) zw (runOps C zw ops).2 := by
  induction ops with
  | nil => intro zw; exact (Ext.refl zw).extF
  | cons op ops ih =>
    intro zw
    have h1 := runOp_ext C zw op
    have h2 := ih (runOp C zw op).2
    have := h1.trans h2
    simp only [runOps, opsFlushes]
    exact this

theorem runArchive_ext (C : Codec) (zw : ZipWriter) (ops : List Op) (evs : List Ev) :
    ExtF (opsFlushes ops (runArchive C zw ops evs).1) zw (runArchive C zw ops evs).2.2 := by
  have h1 := runOps_ext C ops zw
  have h2 := (Grows.closeArchive ⟨(runOps C zw ops).2, evs⟩).extF
  have := h1.trans h2
  simp only [runArchive]
  rwa [Nat.add_zero] at this

theorem runOps_length (C : Codec) (ops : List Op) : ∀ zw : ZipWriter, (runOps C zw ops).1.length = ops.length := by
  induction ops with
  | nil => intro zw; rfl
  | cons op ops ih => intro zw; simp only [runOps, List.length_cons, ih]

/-! ## Completion: a sink that keeps accepting lets every call finish -/

/-- Not an interruption: success or a failure the crate decided on. -/
def Own {α : Type} (r : Res α) : Prop := ∀ e, r = .error e → OwnWriteFailure e

theorem Own.not {α : Type} {r : Res α} (h : Own r) : ¬ WInterrupted r := by
  cases r with
  | ok a => exact not_winterrupted_ok
  | error e => exact not_winterrupted_own (h e rfl)

theorem Own.ok {α : Type} {a : α} : Own (.ok a : Res α) := fun _ h => by cases h

/-- With a sink that always takes up to `c + 1` bytes, the call completes after a fixed number of events. -/
def WCompletes {α : Type} (c : Nat) (m : Wr α) : Prop := ∀ zw, ∃ k r zw', Own r ∧
  ∀ extra, m ⟨zw, List.replicate (k + extra) (.accept (c + 1))⟩ = (r, ⟨zw', List.replicate extra (.accept (c + 1))⟩)

namespace WCompletes

theorem pure {α : Type} {c : Nat} {a : α} : WCompletes c (pure a : Wr α) :=
  fun zw => ⟨0, .ok a, zw, Own.ok, fun extra => by rw [Nat.zero_add]; rfl⟩
theorem fail {α : Type} {c : Nat} {e : Fail} (h : OwnWriteFailure e) : WCompletes c (Wr.fail e : Wr α) :=
  fun zw => ⟨0, .error e, zw, fun _ h' => by cases h'; exact h, fun extra => by rw [Nat.zero_add]; rfl⟩
theorem lift {α : Type} {c : Nat} {r : Res α} (h : Own r) : WCompletes c (Wr.lift r) :=
  fun zw => ⟨0, r, zw, h, fun extra => by rw [Nat.zero_add]; rfl⟩
theorem get {c : Nat} : WCompletes c Wr.get := fun zw => ⟨0, .ok zw, zw, Own.ok, fun extra => by rw [Nat.zero_add]; rfl⟩
theorem modify {c : Nat} {f : ZipWriter → ZipWriter} : WCompletes c (Wr.modify f) :=
  fun zw => ⟨0, .ok (), f zw, Own.ok, fun extra => by rw [Nat.zero_add]; rfl⟩

theorem bind {α β : Type} {c : Nat} {m : Wr α} {f : α → Wr β} (hm : WCompletes c m) (hf : ∀ a, WCompletes c (f a)) :
    WCompletes c (m >>= f) := by
  intro zw
  obtain ⟨k, r, zw1, hr, h⟩ := hm zw
  cases r with
  | error e => exact ⟨k, .error e, zw1, fun _ h' => by cases h'; exact hr e rfl, fun extra => Wr.bind_err (h extra)⟩
  | ok a =>
    obtain ⟨k', r', zw2, hr', h'⟩ := hf a zw1
    refine ⟨k + k', r', zw2, hr', fun extra => ?_⟩
    rw [Wr.bind_ok (by rw [Nat.add_assoc]; exact h (k' + extra))]
    exact h' extra

theorem ite {α : Type} {c : Nat} {p : Prop} [Decidable p] {m n : Wr α} (hm : WCompletes c m) (hn : WCompletes c n) :
    WCompletes c (if p then m else n) := by split <;> assumption

theorem writeAllLoop_completes (c : Nat) : ∀ (n : Nat) (w : OffsetWriter) (buf : Bytes), buf.length ≤ n →
    ∃ k w', ∀ extra, writeAllLoop w buf (List.replicate (k + extra) (.accept (c + 1)))
      = (.ok (), [], w', List.replicate extra (.accept (c + 1))) := by
  intro n
  induction n with
  | zero =>
    intro w buf h
    have hb : buf = [] := List.length_eq_zero_iff.1 (by omega)
    subst hb
    refine ⟨0, w, fun extra => ?_⟩
    rw [Nat.zero_add]
    cases extra <;> simp [writeAllLoop, List.replicate_succ]
  | succ n ih =>
    intro w buf h
    by_cases hb : buf.length = 0
    · have hb : buf = [] := List.length_eq_zero_iff.1 hb
      subst hb
      refine ⟨0, w, fun extra => ?_⟩
      rw [Nat.zero_add]
      cases extra <;> simp [writeAllLoop, List.replicate_succ]
    · obtain ⟨k, w', hk⟩ := ih (w.accept buf (min (c + 1) buf.length)) (buf.drop (min (c + 1) buf.length))
        (by rw [List.length_drop]; omega)
      refine ⟨k + 1, w', fun extra => ?_⟩
      rw [show k + 1 + extra = (k + extra) + 1 by omega, List.replicate_succ]
      unfold writeAllLoop
      rw [if_neg hb]
      simp only
      rw [if_neg (by omega)]
      exact hk extra

theorem writeAll {c : Nat} {buf : Bytes} : WCompletes c (Wr.writeAll buf) := by
  intro zw
  obtain ⟨k, w', h⟩ := writeAllLoop_completes c buf.length zw.writer buf (Nat.le_refl _)
  exact ⟨k, .ok (), { zw with writer := w' }, Own.ok, fun extra => by simp only [Wr.writeAll, h]⟩

theorem own_bind {α β : Type} {x : Res α} {f : α → Res β} (hx : Own x) (hf : ∀ a, Own (f a)) : Own (x >>= f) := by
  cases x with
  | ok a => exact hf a
  | error e => exact fun _ h => by cases h; exact hx e rfl

theorem own_err {α : Type} {e : Fail} (h : OwnWriteFailure e) : Own (.error e : Res α) := fun _ h' => by cases h'; exact h

theorem own_pure {α : Type} {a : α} : Own (Pure.pure a : Res α) := Own.ok

theorem own_ite {α : Type} {p : Prop} [Decidable p] {x y : Res α} (hx : Own x) (hy : Own y) : Own (if p then x else y) := by
  split <;> assumption

theorem own_tryU16 (n : Nat) (e : ZipError) (h : OwnWriteFailure (.err e)) : Own (tryU16 n e) := own_ite Own.ok (own_err h)

theorem own_compress (C : Codec) (e : ZipEntry) (d : Bytes) : Own (compress C e d) := by
  unfold compress
  split
  · exact own_err trivial
  · exact own_err trivial
  · exact Own.ok

theorem own_measure (C : Codec) (e : ZipEntry) (d : Bytes) (p : Bool) : Own (wholeMeasure C e d p) :=
  own_ite Own.ok (own_bind (own_ite Own.ok (own_compress _ _ _)) fun _ => own_pure)

theorem own_build (f : Zip64Field) : Own (Zip64Builder.build f) := own_ite (own_err trivial) Own.ok

theorem own_place (e : ZipEntry) (b : Option Zip64Field) : Own (placeBuilder e b) := by
  cases b with
  | none => exact Own.ok
  | some b => exact own_ite Own.ok (own_bind (own_build _) fun _ => own_pure)

theorem own_infozip (id : UInt16) (f : InfoZipField) : Own (f.asBytes id) := by
  cases f <;> exact own_ite Own.ok (own_err trivial)

theorem own_field (f : ExtraField) : Own f.asBytes := by
  cases f with
  | zip64 f => exact Own.ok
  | unknown f => exact Own.ok
  | unicodeComment f => exact own_infozip _ f
  | unicodePath f => exact own_infozip _ f

theorem own_extra (fs : List ExtraField) : Own (extraAsBytes fs) := by
  induction fs with
  | nil => exact Own.ok
  | cons f fs ih => exact own_bind (own_field f) fun _ => own_bind ih fun _ => own_pure

variable {c : Nat}

theorem enforceZip64 : WCompletes c enforceZip64 := bind get fun _ => ite (fail trivial) modify

theorem enforceZip64Sizes (e : ZipEntry) : WCompletes c (enforceZip64Sizes e) :=
  ite pure (bind enforceZip64 fun _ => pure)

theorem enforceZip64Offset (b : Option Zip64Field) (o : Nat) : WCompletes c (enforceZip64Offset b o) :=
  ite pure (bind enforceZip64 fun _ => pure)

theorem wholePrepare (C : Codec) (e : ZipEntry) (d : Bytes) (p : Bool) : WCompletes c (wholePrepare C e d p) :=
  bind (lift (own_measure _ _ _ _)) fun _ => bind (enforceZip64Sizes _) fun _ => bind get fun _ =>
    bind (enforceZip64Offset _ _) fun _ => bind (lift (own_place _ _)) fun _ =>
    bind (lift (own_bind (own_tryU16 _ _ trivial) fun _ => own_bind (own_tryU16 _ _ trivial) fun _ => own_pure)) fun _ =>
    bind (lift (own_bind (own_tryU16 _ _ trivial) fun _ => own_pure)) fun _ => pure

theorem pushEntry (x : CdEntry) : WCompletes c (pushEntry x) :=
  bind modify fun _ => bind get fun _ => ite (ite (fail trivial) modify) pure

theorem own_late (p : Prepared) : Own (wholeLateBuilder p) := by
  unfold wholeLateBuilder
  split
  · exact Own.ok
  · exact own_bind (own_build _) fun _ => own_bind (own_tryU16 _ _ trivial) fun _ => own_pure

theorem writeWhole (C : Codec) (e : ZipEntry) (d : Bytes) (p : Bool) : WCompletes c (writeWhole C e d p) :=
  bind (wholePrepare _ _ _ _) fun _ => bind writeAll fun _ => bind writeAll fun _ => bind writeAll fun _ =>
    bind (lift (own_extra _)) fun _ => bind writeAll fun _ => bind writeAll fun _ => bind (lift (own_late _)) fun _ =>
    pushEntry _

theorem streamZip64 (e : ZipEntry) : WCompletes c (streamZip64 e) :=
  bind get fun _ => ite (bind modify fun _ => pure) (ite (fail trivial) pure)

theorem streamWriteLfh (e : ZipEntry) : WCompletes c (streamWriteLfh e) :=
  bind (streamZip64 _) fun _ =>
    bind (lift (own_bind (own_tryU16 _ _ trivial) fun _ => own_bind (own_tryU16 _ _ trivial) fun _ => own_pure)) fun _ =>
    bind writeAll fun _ => bind writeAll fun _ => bind writeAll fun _ => bind (lift (own_extra _)) fun _ =>
    bind writeAll fun _ => pure

theorem own_raw (C : Codec) (m : Compression) (p : Bool) : Own (encFromRaw C m p) := by
  unfold encFromRaw
  refine own_ite Own.ok ?_
  cases m <;> first | exact Own.ok | exact own_err trivial

theorem openStream (C : Codec) (e : ZipEntry) (p : Bool) : WCompletes c (openStream C e p) :=
  bind get fun _ => bind (streamWriteLfh _) fun _ => bind get fun _ => bind (lift (own_raw _ _ _)) fun _ => pure

theorem encClose {C : Codec} (s : Option (EncState C)) : WCompletes c (encClose s) := by
  cases s with
  | none => exact pure
  | some s => exact writeAll

theorem closeStream {C : Codec} (st : EntryStream C) : WCompletes c (closeStream st) :=
  bind (encClose _) fun _ => bind get fun _ =>
    bind (lift (own_ite (own_ite (own_err trivial) Own.ok) (own_bind (own_tryU16 _ _ trivial) fun _ => own_pure))) fun _ =>
    bind writeAll fun _ => bind writeAll fun _ => bind writeAll fun _ => bind writeAll fun _ =>
    bind (lift (own_bind (own_tryU16 _ _ trivial) fun _ => own_pure)) fun _ => pushEntry _

theorem writeCdEntry (x : CdEntry) : WCompletes c (writeCdEntry x) :=
  bind writeAll fun _ => bind writeAll fun _ => bind writeAll fun _ => bind (lift (own_extra _)) fun _ =>
    bind writeAll fun _ => writeAll

theorem writeCdEntries (cs : List CdEntry) : WCompletes c (writeCdEntries cs) := by
  induction cs with
  | nil => exact pure
  | cons x cs ih => exact bind (writeCdEntry x) fun _ => ih

theorem closeCheckOffset (n : Nat) : WCompletes c (closeCheckOffset n) :=
  ite (bind get fun _ => ite (fail trivial) modify) pure

theorem writeZip64End (a b d : Nat) : WCompletes c (writeZip64End a b d) :=
  bind get fun _ => bind writeAll fun _ => bind writeAll fun _ => bind writeAll fun _ => writeAll

theorem closeArchive : WCompletes c closeArchive :=
  bind get fun _ => bind (writeCdEntries _) fun _ => bind get fun _ => bind (closeCheckOffset _) fun _ =>
    bind get fun _ => bind (ite (writeZip64End _ _ _) pure) fun _ => bind writeAll fun _ => bind writeAll fun _ =>
    bind writeAll fun _ => bind get fun _ => pure

end WCompletes

/-- A completing call reaches the outcome it has. -/
theorem Outcome.reached {α : Type} {m : Wr α} {zw zw' : ZipWriter} {r : Res α} (h : Outcome m zw r zw') {c : Nat}
    (hc : WCompletes c m) : ∃ k, ∀ extra, m ⟨zw, List.replicate (k + extra) (.accept (c + 1))⟩
      = (r, ⟨zw', List.replicate extra (.accept (c + 1))⟩) := by
  obtain ⟨k, r1, zw1, hr, hk⟩ := hc zw
  obtain ⟨h1, h2⟩ := h.use (hk 0) hr.not
  simp only at h2
  subst h1 h2
  exact ⟨k, hk⟩

end AsyncZip
