import Verif.Model.Write
/-!
# The writer's calls: effects and outcomes

`Grows` is what every call does to the writer whatever happens. `Outcome m zw r zw'` says what a call amounts to unless
it is interrupted by the sink or by being dropped.
-/

namespace AsyncZip
open Wr

/-- The call ended because the sink failed or accepted nothing, or because its future was dropped. -/
def WInterrupted {α : Type} (r : Res α) : Prop :=
  r = .error .cancelled ∨ (∃ c, r = .error (sinkErr c)) ∨ r = .error (.err (.upstreamReadError .writeZero))

theorem not_winterrupted_ok {α : Type} {a : α} : ¬ WInterrupted (.ok a : Res α) := by
  rintro (h | ⟨c, h⟩ | h) <;> cases h

/-- The error stays the same whatever the type of the result. -/
theorem WInterrupted.cast {α β : Type} {e : Fail} (h : WInterrupted (.error e : Res α)) : WInterrupted (.error e : Res β) := by
  rcases h with h | ⟨c, h⟩ | h
  · cases h; exact Or.inl rfl
  · cases h; exact Or.inr (Or.inl ⟨c, rfl⟩)
  · cases h; exact Or.inr (Or.inr rfl)

/-- Failures the crate itself decides on. -/
def OwnWriteFailure : Fail → Prop
  | .err (.upstreamReadError _) => False
  | .cancelled => False
  | _ => True

theorem not_winterrupted_own {α : Type} {e : Fail} (h : OwnWriteFailure e) : ¬ WInterrupted (.error e : Res α) := by
  rintro (h' | ⟨c, h'⟩ | h') <;> cases h' <;> exact h

/-! ## Equations of the monad -/

@[simp] theorem Wr.pure_def {α : Type} (a : α) (s : WSt) : (pure a : Wr α) s = (.ok a, s) := rfl
@[simp] theorem Wr.fail_def {α : Type} (e : Fail) (s : WSt) : (fail e : Wr α) s = (.error e, s) := rfl
@[simp] theorem Wr.lift_def {α : Type} (r : Res α) (s : WSt) : (lift r : Wr α) s = (r, s) := rfl
@[simp] theorem Wr.get_def (s : WSt) : Wr.get s = (.ok s.zw, s) := rfl
@[simp] theorem Wr.modify_def (f : ZipWriter → ZipWriter) (s : WSt) : modify f s = (.ok (), { s with zw := f s.zw }) := rfl

theorem Wr.bind_def {α β : Type} (m : Wr α) (f : α → Wr β) (s : WSt) :
    (m >>= f) s = match m s with | (.ok a, s') => f a s' | (.error e, s') => (.error e, s') := rfl

theorem Wr.bind_ok {α β : Type} {m : Wr α} {f : α → Wr β} {s s' : WSt} {a : α} (h : m s = (.ok a, s')) :
    (m >>= f) s = f a s' := by rw [Wr.bind_def, h]

theorem Wr.bind_err {α β : Type} {m : Wr α} {f : α → Wr β} {s s' : WSt} {e : Fail} (h : m s = (.error e, s')) :
    (m >>= f) s = (.error e, s') := by rw [Wr.bind_def, h]

theorem Wr.bind_ok_iff {α β : Type} {m : Wr α} {f : α → Wr β} {s s' : WSt} {b : β} :
    (m >>= f) s = (.ok b, s') ↔ ∃ a s1, m s = (.ok a, s1) ∧ f a s1 = (.ok b, s') := by
  rw [Wr.bind_def]
  cases h : m s with
  | mk r s1 => cases r <;> simp [and_assoc]

theorem Wr.bind_error_iff {α β : Type} {m : Wr α} {f : α → Wr β} {s s' : WSt} {e : Fail} :
    (m >>= f) s = (.error e, s') ↔ m s = (.error e, s') ∨ ∃ a s1, m s = (.ok a, s1) ∧ f a s1 = (.error e, s') := by
  rw [Wr.bind_def]
  cases h : m s with
  | mk r s1 => cases r <;> simp [and_assoc]

/-! ## Growth -/

/-- The writer after `x` has been accepted by the sink. -/
def ZipWriter.put (w : ZipWriter) (x : Bytes) : ZipWriter :=
  { w with writer := { sink := { w.writer.sink with bytes := w.writer.sink.bytes ++ x }, offset := w.writer.offset + x.length } }

/-- `b` comes from `a` by appending to the sink and to the list of entries; ZIP64 is never unset. -/
structure Ext (a b : ZipWriter) : Prop where
  bytes : ∃ x, b.writer.sink.bytes = a.writer.sink.bytes ++ x ∧ b.writer.offset = a.writer.offset + x.length
  closes : b.writer.sink.closes = a.writer.sink.closes
  flushes : b.writer.sink.flushes = a.writer.sink.flushes
  entries : a.cdEntries <+: b.cdEntries
  force : b.forceNoZip64 = a.forceNoZip64
  zip64 : a.isZip64 = true → b.isZip64 = true
  comment : b.commentOpt = a.commentOpt

theorem Ext.refl (a : ZipWriter) : Ext a a :=
  ⟨⟨[], by simp, rfl⟩, rfl, rfl, List.prefix_rfl, rfl, id, rfl⟩

theorem Ext.trans {a b c : ZipWriter} (h : Ext a b) (h' : Ext b c) : Ext a c := by
  obtain ⟨x, hx, hx'⟩ := h.bytes
  obtain ⟨y, hy, hy'⟩ := h'.bytes
  refine ⟨⟨x ++ y, by rw [hy, hx, List.append_assoc], by rw [hy', hx', List.length_append]; omega⟩,
    h'.closes.trans h.closes, h'.flushes.trans h.flushes, h.entries.trans h'.entries, h'.force.trans h.force,
    fun hz => h'.zip64 (h.zip64 hz), h'.comment.trans h.comment⟩

/-- Whatever happens, the call only extends the writer. -/
def Grows {α : Type} (m : Wr α) : Prop := ∀ s, Ext s.zw (m s).2.zw

theorem Grows.pure {α : Type} (a : α) : Grows (pure a : Wr α) := fun _ => Ext.refl _
theorem Grows.fail {α : Type} (e : Fail) : Grows (fail e : Wr α) := fun _ => Ext.refl _
theorem Grows.lift {α : Type} (r : Res α) : Grows (lift r : Wr α) := fun _ => Ext.refl _
theorem Grows.get : Grows Wr.get := fun _ => Ext.refl _

theorem Grows.bind {α β : Type} {m : Wr α} {f : α → Wr β} (hm : Grows m) (hf : ∀ a, Grows (f a)) : Grows (m >>= f) := by
  intro s
  have := hm s
  rw [Wr.bind_def]
  cases h : m s with
  | mk r s1 =>
    rw [h] at this
    cases r with
    | ok a => exact this.trans (hf a s1)
    | error e => exact this

theorem Grows.ite {α : Type} {p : Prop} [Decidable p] {m n : Wr α} (hm : Grows m) (hn : Grows n) :
    Grows (if p then m else n) := by split <;> assumption

/-- What `write_all` does: it writes a prefix, which is everything if it succeeds. -/
theorem writeAllLoop_spec (evs : List Ev) : ∀ (w : OffsetWriter) (buf : Bytes) r rest w' evs',
    writeAllLoop w buf evs = (r, rest, w', evs') →
    ∃ x, buf = x ++ rest ∧ w' = { sink := { w.sink with bytes := w.sink.bytes ++ x }, offset := w.offset + x.length } ∧
      (r = .ok () ∧ rest = [] ∨ WInterrupted r) := by
  induction evs with
  | nil =>
    intro w buf r rest w' evs' h
    unfold writeAllLoop at h
    split at h <;> simp only [Prod.mk.injEq] at h <;> obtain ⟨rfl, rfl, rfl, rfl⟩ := h
    · rename_i hb
      have := List.length_eq_zero_iff.1 hb
      exact ⟨[], rfl, by simp, Or.inl ⟨rfl, this⟩⟩
    · exact ⟨[], rfl, by simp, Or.inr (Or.inl rfl)⟩
  | cons ev evs ih =>
    intro w buf r rest w' evs' h
    unfold writeAllLoop at h
    split at h
    · rename_i hb
      simp only [Prod.mk.injEq] at h
      obtain ⟨rfl, rfl, rfl, rfl⟩ := h
      exact ⟨[], rfl, by simp, Or.inl ⟨rfl, List.length_eq_zero_iff.1 hb⟩⟩
    · have hacc : ∀ n, (if min n buf.length = 0 then
          ((.error (.err (.upstreamReadError .writeZero)), buf, w, evs) : Res Unit × Bytes × OffsetWriter × List Ev)
          else writeAllLoop (w.accept buf (min n buf.length)) (buf.drop (min n buf.length)) evs) = (r, rest, w', evs') →
          ∃ x, buf = x ++ rest ∧ w' = { sink := { w.sink with bytes := w.sink.bytes ++ x }, offset := w.offset + x.length } ∧
          (r = .ok () ∧ rest = [] ∨ WInterrupted r) := by
        intro n h
        split at h
        · simp only [Prod.mk.injEq] at h
          obtain ⟨rfl, rfl, rfl, rfl⟩ := h
          exact ⟨[], rfl, by simp, Or.inr (Or.inr (Or.inr rfl))⟩
        · obtain ⟨x, h1, h2, h3⟩ := ih _ _ _ _ _ _ h
          refine ⟨buf.take (min n buf.length) ++ x, ?_, ?_, h3⟩
          · rw [List.append_assoc, ← h1, List.take_append_drop]
          · rw [h2]
            simp only [OffsetWriter.accept, List.append_assoc, List.length_append, List.length_take]
            congr 1
            omega
      split at h
      · exact ih _ _ _ _ _ _ h
      · simp only [Prod.mk.injEq] at h
        obtain ⟨rfl, rfl, rfl, rfl⟩ := h
        exact ⟨[], rfl, by simp, Or.inr (Or.inr (Or.inl ⟨_, rfl⟩))⟩
      · exact hacc _ h
      · exact hacc _ h

theorem writeAll_spec (buf : Bytes) (s : WSt) : ∃ x rest evs', buf = x ++ rest ∧
    (writeAll buf s).2 = ⟨s.zw.put x, evs'⟩ ∧ ((writeAll buf s).1 = .ok () ∧ rest = [] ∨ WInterrupted (writeAll buf s).1) := by
  unfold writeAll
  cases h : writeAllLoop s.zw.writer buf s.evs with
  | mk r t =>
    obtain ⟨rest, w', evs'⟩ := t
    obtain ⟨x, h1, h2, h3⟩ := writeAllLoop_spec _ _ _ _ _ _ _ h
    exact ⟨x, rest, evs', h1, by simp only [h2, ZipWriter.put], h3⟩

theorem Ext.put (w : ZipWriter) (x : Bytes) : Ext w (w.put x) :=
  ⟨⟨x, rfl, rfl⟩, rfl, rfl, List.prefix_rfl, rfl, id, rfl⟩

theorem Grows.writeAll (buf : Bytes) : Grows (writeAll buf) := by
  intro s
  obtain ⟨x, rest, evs', _, h, _⟩ := writeAll_spec buf s
  rw [h]
  exact Ext.put _ _

theorem Grows.setZip64 : Grows (modify fun w => { w with isZip64 := true }) :=
  fun _ => ⟨⟨[], by simp, rfl⟩, rfl, rfl, List.prefix_rfl, rfl, fun _ => rfl, rfl⟩

theorem Grows.push (c : CdEntry) : Grows (modify fun w => { w with cdEntries := w.cdEntries ++ [c] }) :=
  fun _ => ⟨⟨[], by simp, rfl⟩, rfl, rfl, List.prefix_append _ _, rfl, id, rfl⟩

theorem Grows.enforceZip64 : Grows enforceZip64 :=
  Grows.bind Grows.get fun _ => Grows.ite (Grows.fail _) Grows.setZip64

theorem Grows.enforceZip64Sizes (e : ZipEntry) : Grows (enforceZip64Sizes e) :=
  Grows.ite (Grows.pure _) (Grows.bind Grows.enforceZip64 fun _ => Grows.pure _)

theorem Grows.enforceZip64Offset (b : Option Zip64Field) (o : Nat) : Grows (enforceZip64Offset b o) :=
  Grows.ite (Grows.pure _) (Grows.bind Grows.enforceZip64 fun _ => Grows.pure _)

theorem Grows.wholePrepare (C : Codec) (e : ZipEntry) (d : Bytes) (p : Bool) : Grows (wholePrepare C e d p) :=
  Grows.bind (Grows.lift _) fun _ => Grows.bind (Grows.enforceZip64Sizes _) fun _ => Grows.bind Grows.get fun _ =>
    Grows.bind (Grows.enforceZip64Offset _ _) fun _ => Grows.bind (Grows.lift _) fun _ =>
    Grows.bind (Grows.lift _) fun _ => Grows.bind (Grows.lift _) fun _ => Grows.pure _

theorem Grows.pushEntry (c : CdEntry) : Grows (pushEntry c) :=
  Grows.bind (Grows.push c) fun _ => Grows.bind Grows.get fun _ =>
    Grows.ite (Grows.ite (Grows.fail _) Grows.setZip64) (Grows.pure _)

theorem Grows.writeWhole (C : Codec) (e : ZipEntry) (d : Bytes) (p : Bool) : Grows (writeWhole C e d p) :=
  Grows.bind (Grows.wholePrepare _ _ _ _) fun _ => Grows.bind (Grows.writeAll _) fun _ =>
    Grows.bind (Grows.writeAll _) fun _ => Grows.bind (Grows.writeAll _) fun _ => Grows.bind (Grows.lift _) fun _ =>
    Grows.bind (Grows.writeAll _) fun _ => Grows.bind (Grows.writeAll _) fun _ => Grows.bind (Grows.lift _) fun _ =>
    Grows.pushEntry _

theorem Grows.streamZip64 (e : ZipEntry) : Grows (streamZip64 e) :=
  Grows.bind Grows.get fun _ => Grows.ite (Grows.bind Grows.setZip64 fun _ => Grows.pure _)
    (Grows.ite (Grows.fail _) (Grows.pure _))

theorem Grows.streamWriteLfh (e : ZipEntry) : Grows (streamWriteLfh e) :=
  Grows.bind (Grows.streamZip64 _) fun _ => Grows.bind (Grows.lift _) fun _ => Grows.bind (Grows.writeAll _) fun _ =>
    Grows.bind (Grows.writeAll _) fun _ => Grows.bind (Grows.writeAll _) fun _ => Grows.bind (Grows.lift _) fun _ =>
    Grows.bind (Grows.writeAll _) fun _ => Grows.pure _

theorem Grows.openStream (C : Codec) (e : ZipEntry) (p : Bool) : Grows (openStream C e p) :=
  Grows.bind Grows.get fun _ => Grows.bind (Grows.streamWriteLfh _) fun _ => Grows.bind Grows.get fun _ =>
    Grows.bind (Grows.lift _) fun _ => Grows.pure _

theorem Grows.encClose {C : Codec} (s : Option (EncState C)) : Grows (encClose s) := by
  cases s with
  | none => exact Grows.pure _
  | some s => exact Grows.writeAll _

theorem Grows.closeStream {C : Codec} (st : EntryStream C) : Grows (closeStream st) :=
  Grows.bind (Grows.encClose _) fun _ => Grows.bind Grows.get fun _ => Grows.bind (Grows.lift _) fun _ =>
    Grows.bind (Grows.writeAll _) fun _ => Grows.bind (Grows.writeAll _) fun _ => Grows.bind (Grows.writeAll _) fun _ =>
    Grows.bind (Grows.writeAll _) fun _ => Grows.bind (Grows.lift _) fun _ => Grows.pushEntry _

theorem Grows.writeCdEntry (c : CdEntry) : Grows (writeCdEntry c) :=
  Grows.bind (Grows.writeAll _) fun _ => Grows.bind (Grows.writeAll _) fun _ => Grows.bind (Grows.writeAll _) fun _ =>
    Grows.bind (Grows.lift _) fun _ => Grows.bind (Grows.writeAll _) fun _ => Grows.writeAll _

theorem Grows.writeCdEntries (cs : List CdEntry) : Grows (writeCdEntries cs) := by
  induction cs with
  | nil => exact Grows.pure _
  | cons c cs ih => exact Grows.bind (Grows.writeCdEntry c) fun _ => ih

theorem Grows.closeCheckOffset (n : Nat) : Grows (closeCheckOffset n) :=
  Grows.ite (Grows.bind Grows.get fun _ => Grows.ite (Grows.fail _) Grows.setZip64) (Grows.pure _)

theorem Grows.writeZip64End (a b c : Nat) : Grows (writeZip64End a b c) :=
  Grows.bind Grows.get fun _ => Grows.bind (Grows.writeAll _) fun _ => Grows.bind (Grows.writeAll _) fun _ =>
    Grows.bind (Grows.writeAll _) fun _ => Grows.writeAll _

theorem Grows.closeArchive : Grows closeArchive :=
  Grows.bind Grows.get fun _ => Grows.bind (Grows.writeCdEntries _) fun _ => Grows.bind Grows.get fun _ =>
    Grows.bind (Grows.closeCheckOffset _) fun _ => Grows.bind Grows.get fun _ =>
    Grows.bind (Grows.ite (Grows.writeZip64End _ _ _) (Grows.pure _)) fun _ => Grows.bind (Grows.writeAll _) fun _ =>
    Grows.bind (Grows.writeAll _) fun _ => Grows.bind (Grows.writeAll _) fun _ => Grows.bind Grows.get fun _ => Grows.pure _

/-! ## Outcomes -/

/-- Unless interrupted, the call on `zw` gives `r` and leaves `zw'`, whatever the sink's schedule. -/
def Outcome {α : Type} (m : Wr α) (zw : ZipWriter) (r : Res α) (zw' : ZipWriter) : Prop :=
  ∀ evs, WInterrupted (m ⟨zw, evs⟩).1 ∨ ((m ⟨zw, evs⟩).1 = r ∧ (m ⟨zw, evs⟩).2.zw = zw')

namespace Outcome

theorem pure {α : Type} {a : α} {zw : ZipWriter} : Outcome (pure a : Wr α) zw (.ok a) zw := fun _ => Or.inr ⟨rfl, rfl⟩
theorem fail {α : Type} {e : Fail} {zw : ZipWriter} : Outcome (Wr.fail e : Wr α) zw (.error e) zw :=
  fun _ => Or.inr ⟨rfl, rfl⟩
theorem lift {α : Type} {r : Res α} {zw : ZipWriter} : Outcome (Wr.lift r) zw r zw := fun _ => Or.inr ⟨rfl, rfl⟩
theorem liftOk {α : Type} {r : Res α} {a : α} {zw : ZipWriter} (h : r = .ok a) : Outcome (Wr.lift r) zw (.ok a) zw :=
  fun _ => Or.inr ⟨h, rfl⟩
theorem get {zw : ZipWriter} : Outcome Wr.get zw (.ok zw) zw := fun _ => Or.inr ⟨rfl, rfl⟩
theorem modify {f : ZipWriter → ZipWriter} {zw : ZipWriter} : Outcome (Wr.modify f) zw (.ok ()) (f zw) :=
  fun _ => Or.inr ⟨rfl, rfl⟩

theorem writeAll {buf : Bytes} {zw : ZipWriter} : Outcome (Wr.writeAll buf) zw (.ok ()) (zw.put buf) := by
  intro evs
  obtain ⟨x, rest, evs', h1, h2, h3⟩ := writeAll_spec buf ⟨zw, evs⟩
  rcases h3 with ⟨h3, h4⟩ | h3
  · right
    rw [h2, h3]
    rw [h4, List.append_nil] at h1
    rw [h1]
    exact ⟨rfl, rfl⟩
  · exact Or.inl h3

theorem bind {α β : Type} {m : Wr α} {f : α → Wr β} {zw zw1 zw2 : ZipWriter} {a : α} {r : Res β}
    (hm : Outcome m zw (.ok a) zw1) (hf : Outcome (f a) zw1 r zw2) : Outcome (m >>= f) zw r zw2 := by
  intro evs
  rw [Wr.bind_def]
  cases h : m ⟨zw, evs⟩ with
  | mk x s1 =>
    have := hm evs
    rw [h] at this
    cases x with
    | error e =>
      rcases this with h | ⟨h, _⟩
      · exact Or.inl h.cast
      · cases h
    | ok b =>
      rcases this with h | ⟨h, h'⟩
      · exact absurd h not_winterrupted_ok
      · cases h
        simp only at h'
        obtain ⟨z, ev⟩ := s1
        subst h'
        exact hf ev

theorem bind_error {α β : Type} {m : Wr α} {f : α → Wr β} {zw zw1 : ZipWriter} {e : Fail}
    (hm : Outcome m zw (.error e) zw1) : Outcome (m >>= f) zw (.error e) zw1 := by
  intro evs
  rw [Wr.bind_def]
  cases h : m ⟨zw, evs⟩ with
  | mk x s1 =>
    have := hm evs
    rw [h] at this
    cases x with
    | error e' =>
      rcases this with h | ⟨h, h'⟩
      · exact Or.inl h.cast
      · cases h
        exact Or.inr ⟨rfl, h'⟩
    | ok b =>
      rcases this with h | ⟨h, h'⟩
      · exact absurd h not_winterrupted_ok
      · cases h

theorem ite_pos {α : Type} {p : Prop} [Decidable p] {m n : Wr α} {zw zw' : ZipWriter} {r : Res α} (hp : p)
    (h : Outcome m zw r zw') : Outcome (if p then m else n) zw r zw' := by rw [if_pos hp]; exact h

theorem ite_neg {α : Type} {p : Prop} [Decidable p] {m n : Wr α} {zw zw' : ZipWriter} {r : Res α} (hp : ¬ p)
    (h : Outcome n zw r zw') : Outcome (if p then m else n) zw r zw' := by rw [if_neg hp]; exact h

/-- What a run that is not interrupted gives. -/
theorem use {α : Type} {m : Wr α} {zw zw' : ZipWriter} {r : Res α} (h : Outcome m zw r zw') {evs : List Ev} {x : Res α}
    {s : WSt} (hr : m ⟨zw, evs⟩ = (x, s)) (hx : ¬ WInterrupted x) : x = r ∧ s.zw = zw' := by
  have := h evs
  rw [hr] at this
  exact this.resolve_left hx

theorem useOk {α : Type} {m : Wr α} {zw zw' : ZipWriter} {r : Res α} (h : Outcome m zw r zw') {evs : List Ev} {a : α}
    {s : WSt} (hr : m ⟨zw, evs⟩ = (.ok a, s)) : r = .ok a ∧ s.zw = zw' := by
  obtain ⟨h1, h2⟩ := h.use hr not_winterrupted_ok
  exact ⟨h1.symm, h2⟩

end Outcome

/-- The call has an outcome: it does not depend on the sink's schedule, as long as it is not interrupted. -/
def Determined {α : Type} (m : Wr α) : Prop := ∀ zw, ∃ r zw', Outcome m zw r zw'

namespace Determined

theorem pure {α : Type} {a : α} : Determined (pure a : Wr α) := fun _ => ⟨_, _, Outcome.pure⟩
theorem fail {α : Type} {e : Fail} : Determined (Wr.fail e : Wr α) := fun _ => ⟨_, _, Outcome.fail⟩
theorem lift {α : Type} {r : Res α} : Determined (Wr.lift r) := fun _ => ⟨_, _, Outcome.lift⟩
theorem get : Determined Wr.get := fun _ => ⟨_, _, Outcome.get⟩
theorem modify {f : ZipWriter → ZipWriter} : Determined (Wr.modify f) := fun _ => ⟨_, _, Outcome.modify⟩
theorem writeAll {b : Bytes} : Determined (Wr.writeAll b) := fun _ => ⟨_, _, Outcome.writeAll⟩

theorem bind {α β : Type} {m : Wr α} {f : α → Wr β} (hm : Determined m) (hf : ∀ a, Determined (f a)) :
    Determined (m >>= f) := by
  intro zw
  obtain ⟨r, zw1, h⟩ := hm zw
  cases r with
  | error e => exact ⟨_, _, h.bind_error⟩
  | ok a =>
    obtain ⟨r', zw2, h'⟩ := hf a zw1
    exact ⟨_, _, h.bind h'⟩

theorem ite {α : Type} {p : Prop} [Decidable p] {m n : Wr α} (hm : Determined m) (hn : Determined n) :
    Determined (if p then m else n) := by split <;> assumption

theorem enforceZip64 : Determined enforceZip64 := bind get fun _ => ite fail modify

theorem enforceZip64Sizes (e : ZipEntry) : Determined (enforceZip64Sizes e) :=
  ite pure (bind enforceZip64 fun _ => pure)

theorem enforceZip64Offset (b : Option Zip64Field) (o : Nat) : Determined (enforceZip64Offset b o) :=
  ite pure (bind enforceZip64 fun _ => pure)

theorem wholePrepare (C : Codec) (e : ZipEntry) (d : Bytes) (p : Bool) : Determined (wholePrepare C e d p) :=
  bind lift fun _ => bind (enforceZip64Sizes _) fun _ => bind get fun _ => bind (enforceZip64Offset _ _) fun _ =>
    bind lift fun _ => bind lift fun _ => bind lift fun _ => pure

theorem pushEntry (c : CdEntry) : Determined (pushEntry c) :=
  bind modify fun _ => bind get fun _ => ite (ite fail modify) pure

theorem writeWhole (C : Codec) (e : ZipEntry) (d : Bytes) (p : Bool) : Determined (writeWhole C e d p) :=
  bind (wholePrepare _ _ _ _) fun _ => bind writeAll fun _ => bind writeAll fun _ => bind writeAll fun _ =>
    bind lift fun _ => bind writeAll fun _ => bind writeAll fun _ => bind lift fun _ => pushEntry _

theorem streamZip64 (e : ZipEntry) : Determined (streamZip64 e) :=
  bind get fun _ => ite (bind modify fun _ => pure) (ite fail pure)

theorem streamWriteLfh (e : ZipEntry) : Determined (streamWriteLfh e) :=
  bind (streamZip64 _) fun _ => bind lift fun _ => bind writeAll fun _ => bind writeAll fun _ => bind writeAll fun _ =>
    bind lift fun _ => bind writeAll fun _ => pure

theorem openStream (C : Codec) (e : ZipEntry) (p : Bool) : Determined (openStream C e p) :=
  bind get fun _ => bind (streamWriteLfh _) fun _ => bind get fun _ => bind lift fun _ => pure

theorem encClose {C : Codec} (s : Option (EncState C)) : Determined (encClose s) := by
  cases s with
  | none => exact pure
  | some s => exact writeAll

theorem closeStream {C : Codec} (st : EntryStream C) : Determined (closeStream st) :=
  bind (encClose _) fun _ => bind get fun _ => bind lift fun _ => bind writeAll fun _ => bind writeAll fun _ =>
    bind writeAll fun _ => bind writeAll fun _ => bind lift fun _ => pushEntry _

theorem writeCdEntry (c : CdEntry) : Determined (writeCdEntry c) :=
  bind writeAll fun _ => bind writeAll fun _ => bind writeAll fun _ => bind lift fun _ => bind writeAll fun _ => writeAll

theorem writeCdEntries (cs : List CdEntry) : Determined (writeCdEntries cs) := by
  induction cs with
  | nil => exact pure
  | cons c cs ih => exact bind (writeCdEntry c) fun _ => ih

theorem closeCheckOffset (n : Nat) : Determined (closeCheckOffset n) :=
  ite (bind get fun _ => ite fail modify) pure

theorem writeZip64End (a b c : Nat) : Determined (writeZip64End a b c) :=
  bind get fun _ => bind writeAll fun _ => bind writeAll fun _ => bind writeAll fun _ => writeAll

theorem closeArchive : Determined closeArchive :=
  bind get fun _ => bind (writeCdEntries _) fun _ => bind get fun _ => bind (closeCheckOffset _) fun _ =>
    bind get fun _ => bind (ite (writeZip64End _ _ _) pure) fun _ => bind writeAll fun _ => bind writeAll fun _ =>
    bind writeAll fun _ => bind get fun _ => pure

/-- Two uninterrupted runs agree. -/
theorem agree {α : Type} {m : Wr α} (h : Determined m) {zw : ZipWriter} {evs evs' : List Ev} {x y : Res α} {s t : WSt}
    (h1 : m ⟨zw, evs⟩ = (x, s)) (h2 : m ⟨zw, evs'⟩ = (y, t)) (hx : ¬ WInterrupted x) (hy : ¬ WInterrupted y) :
    x = y ∧ s.zw = t.zw := by
  obtain ⟨r, zw', ho⟩ := h zw
  obtain ⟨a1, a2⟩ := ho.use h1 hx
  obtain ⟨b1, b2⟩ := ho.use h2 hy
  exact ⟨a1.trans b1.symm, a2.trans b2.symm⟩

end Determined

end AsyncZip
