import Verif.Proofs.WriteInvariant
/-!
# Calls of the writer that cannot panic, and calls that do not switch to ZIP64
-/

namespace AsyncZip
open Wr Spec

/-- The call does not panic. -/
def NoP {α : Type} (m : Wr α) : Prop := ∀ s, (m s).1 ≠ .error .panic

/-- The result is not a panic. -/
def NoPR {α : Type} (r : Res α) : Prop := r ≠ .error .panic

namespace NoP

theorem writeAll (b : Bytes) : NoP (writeAll b) := by
  intro s h
  obtain ⟨_, _, _, _, _, h3⟩ := writeAll_spec b s
  rw [h] at h3
  rcases h3 with ⟨h3, _⟩ | h3 | ⟨c, h3⟩ | h3 <;> cases h3

theorem lift {α : Type} {r : Res α} (h : NoPR r) : NoP (Wr.lift r) := fun _ => h
theorem get : NoP Wr.get := fun _ h => by cases h
theorem pure {α : Type} {a : α} : NoP (pure a : Wr α) := fun _ h => by cases h
theorem fail {α : Type} {e : ZipError} : NoP (Wr.fail (.err e) : Wr α) := fun _ h => by cases h
theorem modify {f : ZipWriter → ZipWriter} : NoP (Wr.modify f) := fun _ h => by cases h

theorem bind {α β : Type} {m : Wr α} {f : α → Wr β} (hm : NoP m) (hf : ∀ a, NoP (f a)) : NoP (m >>= f) := by
  intro s h
  have := hm s
  rw [Wr.bind_def] at h
  cases hr : m s with
  | mk r s1 =>
    rw [hr] at h this
    cases r with
    | ok a => exact hf a s1 h
    | error e => simp only at h this; rw [Except.error.injEq] at h; exact this (by rw [h])

/-- Only the results the first call can give matter. -/
theorem bind' {α β : Type} {m : Wr α} {f : α → Wr β} (hm : NoP m) (hf : ∀ a s s', m s = (.ok a, s') → NoP (f a)) :
    NoP (m >>= f) := by
  intro s h
  have := hm s
  rw [Wr.bind_def] at h
  cases hr : m s with
  | mk r s1 =>
    rw [hr] at h this
    cases r with
    | ok a => exact hf a s s1 hr s1 h
    | error e => simp only at h this; rw [Except.error.injEq] at h; exact this (by rw [h])

theorem ite {α : Type} {p : Prop} [Decidable p] {m n : Wr α} (hm : NoP m) (hn : NoP n) :
    NoP (if p then m else n) := by split <;> assumption

end NoP

theorem noPR_bind {α β : Type} {x : Res α} {f : α → Res β} (hx : NoPR x) (hf : ∀ a, NoPR (f a)) : NoPR (x >>= f) := by
  cases x with
  | ok a => exact hf a
  | error e => intro h; rw [res_error_bind, Except.error.injEq] at h; exact hx (by rw [h])

theorem noPR_ok {α : Type} {a : α} : NoPR (.ok a : Res α) := fun h => by cases h
theorem noPR_pure {α : Type} {a : α} : NoPR (pure a : Res α) := fun h => by cases h
theorem noPR_err {α : Type} {e : ZipError} : NoPR (.error (.err e) : Res α) := fun h => by cases h
theorem noPR_ite {α : Type} {p : Prop} [Decidable p] {x y : Res α} (hx : NoPR x) (hy : NoPR y) :
    NoPR (if p then x else y) := by split <;> assumption
theorem noPR_tryU16 (n : Nat) (e : ZipError) : NoPR (tryU16 n e) := noPR_ite noPR_ok noPR_err
theorem noPR_build (f : Zip64Field) : NoPR (Zip64Builder.build f) := noPR_ite noPR_err noPR_ok

theorem noPR_place (e : ZipEntry) (b : Option Zip64Field) : NoPR (placeBuilder e b) := by
  cases b with
  | none => exact noPR_ok
  | some b => exact noPR_ite noPR_ok (noPR_bind (noPR_build _) fun _ => noPR_pure)

theorem noPR_extra {fs : List ExtraField} (h : extraCountBytes fs < 2 ^ 16) : NoPR (extraAsBytes fs) := by
  obtain ⟨b, hb⟩ := extraAsBytes_ok fs h
  rw [hb]; exact noPR_ok

theorem noPR_late (p : Prepared) : NoPR (wholeLateBuilder p) := by
  unfold wholeLateBuilder
  split
  · exact noPR_ok
  · exact noPR_bind (noPR_build _) fun _ => noPR_bind (noPR_tryU16 _ _) fun _ => noPR_pure

theorem measure_panic {C : Codec} {e : ZipEntry} {d : Bytes} {pre : Bool} (h : ¬ (e.compression = .deflate64 ∧ pre = false)) :
    NoPR (wholeMeasure C e d pre) := by
  unfold wholeMeasure
  split
  · exact noPR_ok
  · rename_i hp
    refine noPR_bind ?_ fun _ => noPR_pure
    unfold wholeCompress
    simp only
    split
    · exact noPR_ok
    · rename_i hs
      unfold compress
      simp only
      split
      · rename_i hc; exact absurd hc hs
      · rename_i hc; exact absurd ⟨hc, by simpa using hp⟩ h
      · exact noPR_ok

theorem NoP.enforceZip64 : NoP enforceZip64 := bind get fun _ => ite fail modify

theorem NoP.wholePrepare {C : Codec} {e : ZipEntry} {d : Bytes} {pre : Bool}
    (h : ¬ (e.compression = .deflate64 ∧ pre = false)) : NoP (wholePrepare C e d pre) :=
  bind (lift (measure_panic h)) fun _ => bind (ite pure (bind enforceZip64 fun _ => pure)) fun _ => bind get fun _ =>
    bind (ite pure (bind enforceZip64 fun _ => pure)) fun _ => bind (lift (noPR_place _ _)) fun _ =>
    bind (lift (noPR_bind (noPR_tryU16 _ _) fun _ => noPR_bind (noPR_tryU16 _ _) fun _ => noPR_pure)) fun _ =>
    bind (lift (noPR_bind (noPR_tryU16 _ _) fun _ => noPR_pure)) fun _ => pure

theorem NoP.pushEntry (c : CdEntry) : NoP (pushEntry c) := by
  intro s h
  rcases pushEntry_listed c s with h' | h' <;> rw [h'] at h <;> cases h

theorem NoP.writeWhole {C : Codec} {e : ZipEntry} {d : Bytes} {pre : Bool}
    (h : ¬ (e.compression = .deflate64 ∧ pre = false)) : NoP (writeWhole C e d pre) := by
  refine bind' (NoP.wholePrepare h) fun p s s' hp => ?_
  obtain ⟨em, hf, _⟩ := wholePrepare_ok hp
  have hl := (wholeLfh_ok hf.lfh).2.1
  have := UInt16.toNat_lt p.lfh.extraFieldLength
  exact bind (writeAll _) fun _ => bind (writeAll _) fun _ => bind (writeAll _) fun _ =>
    bind (lift (noPR_extra (by omega))) fun _ => bind (writeAll _) fun _ => bind (writeAll _) fun _ =>
    bind (lift (noPR_late _)) fun _ => NoP.pushEntry _

theorem NoP.streamZip64 (e : ZipEntry) : NoP (streamZip64 e) :=
  bind get fun _ => ite (bind modify fun _ => pure) (ite fail pure)

theorem NoP.streamWriteLfh (e : ZipEntry) : NoP (streamWriteLfh e) := by
  refine bind (NoP.streamZip64 _) fun x => ?_
  obtain ⟨e', a, b⟩ := x
  simp only
  refine bind' (lift (noPR_bind (noPR_tryU16 _ _) fun _ => noPR_bind (noPR_tryU16 _ _) fun _ => noPR_pure))
    fun h s s' hl => ?_
  simp only [Wr.lift_def, Prod.mk.injEq] at hl
  have hl := (streamLfh_ok hl.1).2.1
  have := UInt16.toNat_lt h.extraFieldLength
  exact bind (writeAll _) fun _ => bind (writeAll _) fun _ => bind (writeAll _) fun _ =>
    bind (lift (noPR_extra (by omega))) fun _ => bind (writeAll _) fun _ => pure

theorem encFromRaw_panic {C : Codec} {m : Compression} {pre : Bool} (h : ¬ (m = .deflate64 ∧ pre = false)) :
    NoPR (encFromRaw C m pre) := by
  unfold encFromRaw
  split
  · exact noPR_ok
  · rename_i hp
    split
    · exact noPR_ok
    · exact absurd ⟨rfl, by simpa using hp⟩ h
    · exact noPR_ok

theorem streamWriteLfh_compression {e e' : ZipEntry} {h : LocalFileHeader} {s s' : WSt}
    (hr : streamWriteLfh e s = (.ok (e', h), s')) : e'.compression = e.compression := by
  unfold streamWriteLfh at hr
  obtain ⟨⟨e1, a, b⟩, s1, h1, hr⟩ := Wr.bind_ok_iff.1 hr
  have hc : e1.compression = e.compression := by
    unfold streamZip64 at h1
    obtain ⟨w, s2, h2, h3⟩ := Wr.bind_ok_iff.1 h1
    split at h3
    · obtain ⟨u, s3, h4, h5⟩ := Wr.bind_ok_iff.1 h3
      simp only [Wr.pure_def, Prod.mk.injEq, Except.ok.injEq] at h5
      rw [← h5.1.1]
    · split at h3
      · cases h3
      · simp only [Wr.pure_def, Prod.mk.injEq, Except.ok.injEq] at h3
        rw [← h3.1.1]
  simp only at hr
  obtain ⟨_, _, _, hr⟩ := Wr.bind_ok_iff.1 hr
  obtain ⟨_, _, _, hr⟩ := Wr.bind_ok_iff.1 hr
  obtain ⟨_, _, _, hr⟩ := Wr.bind_ok_iff.1 hr
  obtain ⟨_, _, _, hr⟩ := Wr.bind_ok_iff.1 hr
  obtain ⟨_, _, _, hr⟩ := Wr.bind_ok_iff.1 hr
  obtain ⟨_, _, _, hr⟩ := Wr.bind_ok_iff.1 hr
  simp only [Wr.pure_def, Prod.mk.injEq, Except.ok.injEq] at hr
  rw [← hr.1.1, ← hc, utf8_snd]

theorem NoP.openStream {C : Codec} {e : ZipEntry} {pre : Bool} (h : ¬ (e.compression = .deflate64 ∧ pre = false)) :
    NoP (openStream C e pre) := by
  refine bind get fun _ => bind' (NoP.streamWriteLfh _) fun x s s' hx => bind get fun _ => ?_
  obtain ⟨e', h'⟩ := x
  have hc := streamWriteLfh_compression hx
  simp only
  rw [hc]
  exact bind (lift (encFromRaw_panic h)) fun _ => pure

theorem NoP.encClose {C : Codec} (s : Option (EncState C)) : NoP (encClose s) := by
  cases s with
  | none => exact pure
  | some s => exact writeAll _

theorem NoP.closeStream {C : Codec} (st : EntryStream C) : NoP (closeStream st) :=
  bind (NoP.encClose _) fun _ => bind get fun _ =>
    bind (lift (noPR_ite (noPR_ite noPR_err noPR_ok) (noPR_bind (noPR_tryU16 _ _) fun _ => noPR_pure))) fun _ =>
    bind (writeAll _) fun _ => bind (writeAll _) fun _ => bind (writeAll _) fun _ => bind (writeAll _) fun _ =>
    bind (lift (noPR_bind (noPR_tryU16 _ _) fun _ => noPR_pure)) fun _ => NoP.pushEntry _

theorem winterrupted_not_panic {α : Type} {r : Res α} (h : WInterrupted r) : r ≠ .error .panic := by
  rintro rfl
  rcases h with h | ⟨c, h⟩ | h <;> cases h

/-- Whether the encoder of a stream was closed, if there is one. -/
def EntryStream.shutState {C : Codec} (st : EntryStream C) : Option Bool := st.enc.map (·.fin)

theorem encWrite_fin {C : Codec} (buf : Bytes) (evs : List Ev) : ∀ (w : OffsetWriter) (s : EncState C),
    (encWrite w s buf evs).2.2.fin = s.fin := by
  intro w s
  obtain ⟨x, pend, h1, h2⟩ := encWrite_spec (C := C) buf evs w s
  simp only at h2
  rcases h2 with ⟨k', hk, h⟩ | ⟨c, k', h⟩ | h <;> rw [h] <;> rfl

theorem streamWrite_shut {C : Codec} (zw : ZipWriter) (st : EntryStream C) (buf : Bytes) (evs : List Ev) :
    (streamWrite zw st buf evs).2.2.shutState = st.shutState := by
  unfold streamWrite EntryStream.shutState
  cases hs : st.enc with
  | none =>
    dsimp only
    cases hw : sinkWrite zw.writer buf evs with
    | mk r w => cases r <;> simp [hs]
  | some s =>
    dsimp only
    cases hf : s.fin with
    | true => simp [hs, hf]
    | false =>
      have := encWrite_fin buf evs zw.writer s
      cases hw : encWrite zw.writer s buf evs with
      | mk r t =>
        rw [hw] at this
        simp only at this
        cases r <;> simp [this, hf]

theorem streamFlush_shut {C : Codec} (zw : ZipWriter) (st : EntryStream C) (evs : List Ev) :
    (streamFlush zw st evs).2.2.shutState = st.shutState := by
  unfold streamFlush EntryStream.shutState
  cases hs : st.enc with
  | none => simp [hs]
  | some s =>
    dsimp only
    cases hf : s.fin with
    | true => simp [hs, hf]
    | false =>
      cases hw : writeAllLoop zw.writer (s.pend ++ (C.flush s.enc).2) evs with
      | mk r t => cases r <;> simp [hf]

theorem streamShut_shut {C : Codec} (zw : ZipWriter) (st : EntryStream C) (evs : List Ev) :
    (streamShut zw st evs).2.2.shutState = st.shutState.map fun _ => true := by
  unfold streamShut EntryStream.shutState
  cases hs : st.enc with
  | none => simp [hs]
  | some s => simp

/-- A call on an open stream that fails was failed by the sink, or uses an encoder after it was closed. -/
theorem runActs_error {C : Codec} (acts : List StreamAct) : ∀ (zw : ZipWriter) (st : EntryStream C),
    ∀ r ∈ (runActs zw st acts).1, ∀ x, r = .error x → WInterrupted r ∨
      (r = .error .panic ∧ C.latePanics = true ∧ ∃ b, st.shutState = some b ∧
        (usesClosed acts = true ∨ (b = true ∧ acts.any isUse = true))) := by
  induction acts with
  | nil => intro zw st r hr; simp [runActs] at hr
  | cons a acts ih =>
    intro zw st r hr x hx
    have late : ∀ {α : Type} {y : Res α}, Late C st y → ∃ b, st.shutState = some b ∧ b = true := by
      rintro _ _ ⟨⟨s, h1, h2⟩, _⟩
      exact ⟨s.fin, by simp [EntryStream.shutState, h1], h2⟩
    cases a with
    | write buf evs =>
      obtain ⟨r1, zw', st', h, hs⟩ := streamWrite_spec zw st buf evs
      have hk := streamWrite_shut zw st buf evs
      rw [h] at hk
      simp only [runActs, h, List.mem_cons] at hr
      rcases hr with rfl | hr
      · rcases hs with ⟨k, e, _, h1, _⟩ | ⟨x, e, f, h1, h2 | h2, _⟩
        · rw [h1] at hx; cases hx
        · exact Or.inl h2
        · obtain ⟨b, hb, hb'⟩ := late h2
          exact Or.inr ⟨h2.2.2, h2.2.1, b, hb, Or.inr ⟨hb', by simp [isUse]⟩⟩
      · rcases ih _ _ r hr x hx with h | ⟨h1, h2, b, h3, h4⟩
        · exact Or.inl h
        · refine Or.inr ⟨h1, h2, b, hk ▸ h3, ?_⟩
          rcases h4 with h4 | ⟨h4, h5⟩
          · exact Or.inl h4
          · exact Or.inr ⟨h4, by simp [h5]⟩
    | flush evs =>
      obtain ⟨r1, zw', st', e, h, hs⟩ := streamFlush_spec zw st evs
      have hk := streamFlush_shut zw st evs
      rw [h] at hk
      simp only [runActs, h, List.mem_cons] at hr
      rcases hr with rfl | hr
      · rcases hs with ⟨h1, _⟩ | ⟨h1 | h1, _⟩
        · rw [h1] at hx; cases hx
        · cases r1 with
          | ok u => cases hx
          | error y => exact Or.inl h1.cast
        · obtain ⟨b, hb, hb'⟩ := late h1
          exact Or.inr ⟨by rw [h1.2.2]; rfl, h1.2.1, b, hb, Or.inr ⟨hb', by simp [isUse]⟩⟩
      · rcases ih _ _ r hr x hx with h | ⟨h1, h2, b, h3, h4⟩
        · exact Or.inl h
        · refine Or.inr ⟨h1, h2, b, hk ▸ h3, ?_⟩
          rcases h4 with h4 | ⟨h4, h5⟩
          · exact Or.inl h4
          · exact Or.inr ⟨h4, by simp [h5]⟩
    | shut evs =>
      obtain ⟨r1, zw', st', e, h, hs, _⟩ := streamShut_spec zw st evs
      have hk := streamShut_shut zw st evs
      rw [h] at hk
      simp only [runActs, h, List.mem_cons] at hr
      rcases hr with rfl | hr
      · rcases hs with h1 | h1
        · rw [h1] at hx; cases hx
        · cases r1 with
          | ok u => cases hx
          | error y => exact Or.inl h1.cast
      · rcases ih _ _ r hr x hx with h | ⟨h1, h2, b, h3, h4⟩
        · exact Or.inl h
        · simp only at hk
          rw [h3] at hk
          cases hb : st.shutState with
          | none => rw [hb] at hk; cases hk
          | some c =>
            refine Or.inr ⟨h1, h2, c, rfl, Or.inl ?_⟩
            rcases h4 with h4 | ⟨_, h5⟩
            · simp [usesClosed, h4]
            · simp [usesClosed, h5]

theorem NoP.writeCdEntries : ∀ (cs : List CdEntry), (∀ c ∈ cs, extraCountBytes c.entry.extraFields < 2 ^ 16) →
    NoP (writeCdEntries cs) := by
  intro cs
  induction cs with
  | nil => intro _; exact pure
  | cons c cs ih =>
    intro h
    exact bind (bind (writeAll _) fun _ => bind (writeAll _) fun _ => bind (writeAll _) fun _ =>
      bind (lift (noPR_extra (h c List.mem_cons_self))) fun _ => bind (writeAll _) fun _ => writeAll _)
      fun _ => ih fun c' hc' => h c' (List.mem_cons_of_mem _ hc')

theorem closeArchive_no_panic (zw : ZipWriter) (evs : List Ev)
    (h : ∀ c ∈ zw.cdEntries, extraCountBytes c.entry.extraFields < 2 ^ 16) : (closeArchive ⟨zw, evs⟩).1 ≠ .error .panic := by
  have : NoP (do
      writeCdEntries zw.cdEntries
      let w1 ← Wr.get
      let cdSize := w1.writer.offset - zw.writer.offset
      let numEntries := zw.cdEntries.length
      closeCheckOffset zw.writer.offset
      let w2 ← Wr.get
      (if w2.isZip64 then writeZip64End numEntries cdSize zw.writer.offset else Pure.pure ())
      let header := eocdrOf numEntries cdSize zw.writer.offset (commentBytes zw.commentOpt)
      Wr.writeAll (le32 EOCDR_SIGNATURE)
      Wr.writeAll header.asSlice
      Wr.writeAll (commentBytes zw.commentOpt)
      let w3 ← Wr.get
      (Pure.pure w3.writer.sink : Wr Sink)) :=
    .bind (NoP.writeCdEntries _ h) fun _ => .bind .get fun _ => .bind (.ite (.bind .get fun _ => .ite .fail .modify) .pure)
      fun _ => .bind .get fun _ => .bind (.ite (.bind .get fun _ => .bind (.writeAll _) fun _ => .bind (.writeAll _) fun _ =>
        .bind (.writeAll _) fun _ => .writeAll _) .pure) fun _ => .bind (.writeAll _) fun _ => .bind (.writeAll _) fun _ =>
      .bind (.writeAll _) fun _ => .bind .get fun _ => .pure
  exact this ⟨zw, evs⟩

/-! ## ZIP64 stays off -/

/-- With `force_no_zip64`, the call does not switch the archive to ZIP64. -/
def KeepsZ {α : Type} (m : Wr α) : Prop :=
  ∀ s, s.zw.forceNoZip64 = true → (m s).2.zw.forceNoZip64 = true ∧ (m s).2.zw.isZip64 = s.zw.isZip64

namespace KeepsZ

theorem writeAll (b : Bytes) : KeepsZ (writeAll b) := by
  intro s hs
  obtain ⟨_, _, _, _, h, _⟩ := writeAll_spec b s
  rw [h]; exact ⟨hs, rfl⟩

theorem lift {α : Type} {r : Res α} : KeepsZ (Wr.lift r) := fun _ h => ⟨h, rfl⟩
theorem get : KeepsZ Wr.get := fun _ h => ⟨h, rfl⟩
theorem pure {α : Type} {a : α} : KeepsZ (pure a : Wr α) := fun _ h => ⟨h, rfl⟩
theorem fail {α : Type} {e : Fail} : KeepsZ (Wr.fail e : Wr α) := fun _ h => ⟨h, rfl⟩

theorem bind {α β : Type} {m : Wr α} {f : α → Wr β} (hm : KeepsZ m) (hf : ∀ a, KeepsZ (f a)) : KeepsZ (m >>= f) := by
  intro s hs
  have := hm s hs
  rw [Wr.bind_def]
  cases hr : m s with
  | mk r s1 =>
    rw [hr] at this
    cases r with
    | ok a =>
      have h2 := hf a s1 this.1
      exact ⟨h2.1, h2.2.trans this.2⟩
    | error e => exact this

theorem ite {α : Type} {p : Prop} [Decidable p] {m n : Wr α} (hm : KeepsZ m) (hn : KeepsZ n) :
    KeepsZ (if p then m else n) := by split <;> assumption

/-- `get` followed by a branch on the flag. -/
theorem guard {α : Type} {m n : Wr α} (hm : KeepsZ m) :
    KeepsZ (Wr.get >>= fun w => if w.forceNoZip64 = true then m else n) := by
  intro s hs
  rw [Wr.bind_ok (Wr.get_def s), if_pos hs]
  exact hm s hs

theorem enforceZip64 : KeepsZ enforceZip64 := guard fail

theorem wholePrepare (C : Codec) (e : ZipEntry) (d : Bytes) (p : Bool) : KeepsZ (wholePrepare C e d p) :=
  bind lift fun _ => bind (ite pure (bind enforceZip64 fun _ => pure)) fun _ => bind get fun _ =>
    bind (ite pure (bind enforceZip64 fun _ => pure)) fun _ => bind lift fun _ => bind lift fun _ => bind lift fun _ => pure

theorem pushEntry (c : CdEntry) : KeepsZ (pushEntry c) := by
  intro s hs
  rw [pushEntry_eq]
  exact ⟨hs, by simp [pushed, hs]⟩

theorem writeWhole (C : Codec) (e : ZipEntry) (d : Bytes) (p : Bool) : KeepsZ (writeWhole C e d p) :=
  bind (wholePrepare _ _ _ _) fun _ => bind (writeAll _) fun _ => bind (writeAll _) fun _ => bind (writeAll _) fun _ =>
    bind lift fun _ => bind (writeAll _) fun _ => bind (writeAll _) fun _ => bind lift fun _ => pushEntry _

theorem streamZip64 (e : ZipEntry) : KeepsZ (streamZip64 e) := by
  intro s hs
  unfold AsyncZip.streamZip64
  rw [Wr.bind_ok (Wr.get_def s), if_neg (fun h => h hs)]
  exact KeepsZ.ite fail pure s hs

theorem openStream (C : Codec) (e : ZipEntry) (p : Bool) : KeepsZ (openStream C e p) :=
  bind get fun _ => bind (bind (streamZip64 e) fun _ => bind lift fun _ =>
    bind (writeAll _) fun _ => bind (writeAll _) fun _ => bind (writeAll _) fun _ => bind lift fun _ =>
    bind (writeAll _) fun _ => pure) fun _ => bind get fun _ => bind lift fun _ => pure

theorem encClose {C : Codec} (s : Option (EncState C)) : KeepsZ (encClose s) := by
  cases s with
  | none => exact pure
  | some s => exact writeAll _

theorem closeStream {C : Codec} (st : EntryStream C) : KeepsZ (closeStream st) :=
  bind (encClose _) fun _ => bind get fun _ => bind lift fun _ =>
    bind (writeAll _) fun _ => bind (writeAll _) fun _ => bind (writeAll _) fun _ => bind (writeAll _) fun _ =>
    bind lift fun _ => pushEntry _

end KeepsZ

theorem runOp_keepsZ (C : Codec) (zw : ZipWriter) (op : Op) (hf : zw.forceNoZip64 = true) :
    (runOp C zw op).2.isZip64 = zw.isZip64 := by
  cases op with
  | whole e data pre evs => exact (KeepsZ.writeWhole C e data pre ⟨zw, evs⟩ hf).2
  | comment c => rfl
  | stream e pre evs acts fin =>
    have ho := KeepsZ.openStream C e pre ⟨zw, evs⟩ hf
    cases h : openStream C e pre ⟨zw, evs⟩ with
    | mk r s =>
      rw [h] at ho
      cases r with
      | error x => rw [runOp_open_error h]; exact ho.2
      | ok st =>
        obtain ⟨rs, zw', st', em, f, h1, hl, h2, h3⟩ := runActs_spec acts s.zw st
        have hk : zw'.isZip64 = zw.isZip64 := by rw [h2.writer]; exact ho.2
        have hk' : zw'.forceNoZip64 = true := by rw [h2.writer]; exact ho.1
        cases fin with
        | abandon => rw [runOp_abandon h h1]; exact hk
        | close evs' =>
          have hc := (KeepsZ.closeStream st' ⟨zw', evs'⟩ hk').2
          rw [runOp_close h h1 (t := (AsyncZip.closeStream st' ⟨zw', evs'⟩).2) (r := (AsyncZip.closeStream st' ⟨zw', evs'⟩).1) rfl]
          exact hc.trans hk

theorem runOps_keepsZ (C : Codec) (ops : List Op) : ∀ (zw : ZipWriter), zw.forceNoZip64 = true →
    (runOps C zw ops).2.isZip64 = zw.isZip64 := by
  induction ops with
  | nil => intro zw _; rfl
  | cons op ops ih =>
    intro zw hf
    have h1 := runOp_keepsZ C zw op hf
    have hf' : (runOp C zw op).2.forceNoZip64 = true := (runOp_ext C zw op).force.trans hf
    have := ih _ hf'
    simp only [runOps]
    rw [this, h1]

end AsyncZip
