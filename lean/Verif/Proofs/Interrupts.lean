import Verif.Proofs.WriteClose
/-!
# A call that is interrupted has written less than it would have
-/

namespace AsyncZip
open Spec Wr

/-- What the sink of a writer holds. -/
abbrev ZipWriter.held (zw : ZipWriter) : Bytes := zw.writer.sink.bytes

/-- Whatever the schedule, the call on `zw` gives `r` and leaves `zw'`, or it fails and the sink holds a proper beginning of what
it holds in `zw'`. -/
def StopsTo {α : Type} (m : Wr α) (zw : ZipWriter) (r : Res α) (zw' : ZipWriter) : Prop :=
  zw.held <+: zw'.held ∧ ∀ evs, ((m ⟨zw, evs⟩).1 = r ∧ (m ⟨zw, evs⟩).2.zw = zw') ∨
    ((∃ e, (m ⟨zw, evs⟩).1 = .error e) ∧ (m ⟨zw, evs⟩).2.zw.held <+: zw'.held ∧ (m ⟨zw, evs⟩).2.zw.held ≠ zw'.held)

/-- The call has an outcome in this sense. -/
def Stops {α : Type} (m : Wr α) : Prop := ∀ zw, ∃ r zw', StopsTo m zw r zw'

namespace Stops

theorem pure {α : Type} {a : α} : Stops (pure a : Wr α) := fun _ => ⟨_, _, List.prefix_refl _, fun _ => Or.inl ⟨rfl, rfl⟩⟩
theorem fail {α : Type} {e : Fail} : Stops (Wr.fail e : Wr α) := fun _ => ⟨_, _, List.prefix_refl _, fun _ => Or.inl ⟨rfl, rfl⟩⟩
theorem lift {α : Type} {r : Res α} : Stops (Wr.lift r) := fun _ => ⟨_, _, List.prefix_refl _, fun _ => Or.inl ⟨rfl, rfl⟩⟩
theorem get : Stops Wr.get := fun _ => ⟨_, _, List.prefix_refl _, fun _ => Or.inl ⟨rfl, rfl⟩⟩
theorem modify {f : ZipWriter → ZipWriter} (h : ∀ w, (f w).held = w.held) : Stops (Wr.modify f) := fun zw =>
  ⟨_, f zw, by rw [h]; exact List.prefix_refl _, fun _ => Or.inl ⟨rfl, rfl⟩⟩

theorem writeAll_left {b : Bytes} {w : OffsetWriter} {evs : List Ev} :
    ∀ {r : Res Unit} {rest : Bytes} {w' : OffsetWriter} {evs' : List Ev}, writeAllLoop w b evs = (r, rest, w', evs') →
      r = .ok () ∨ (∃ e, r = .error e) ∧ rest ≠ [] := by
  induction evs generalizing w b with
  | nil =>
    intro r rest w' evs' h
    unfold writeAllLoop at h
    split at h
    · cases h; exact Or.inl rfl
    · rename_i hb
      cases h
      exact Or.inr ⟨⟨_, rfl⟩, fun h => hb (by rw [h]; rfl)⟩
  | cons ev evs ih =>
    intro r rest w' evs' h
    unfold writeAllLoop at h
    split at h
    · cases h; exact Or.inl rfl
    · rename_i hb
      have hne : b ≠ [] := fun h => hb (by rw [h]; rfl)
      cases ev with
      | pending => exact ih h
      | error c a => cases h; exact Or.inr ⟨⟨_, rfl⟩, hne⟩
      | accept n =>
        simp only at h
        split at h
        · cases h; exact Or.inr ⟨⟨_, rfl⟩, hne⟩
        · exact ih h
      | drain n =>
        simp only at h
        split at h
        · cases h; exact Or.inr ⟨⟨_, rfl⟩, hne⟩
        · exact ih h

theorem loop_split {b : Bytes} {w : OffsetWriter} {evs : List Ev} :
    ∀ {r : Res Unit} {rest : Bytes} {w' : OffsetWriter} {evs' : List Ev}, writeAllLoop w b evs = (r, rest, w', evs') →
      w'.sink.bytes ++ rest = w.sink.bytes ++ b := by
  induction evs generalizing w b with
  | nil =>
    intro r rest w' evs' h
    unfold writeAllLoop at h
    split at h <;> (cases h; rfl)
  | cons ev evs ih =>
    intro r rest w' evs' h
    unfold writeAllLoop at h
    split at h
    · cases h; rfl
    · cases ev with
      | pending => exact ih h
      | error c a => cases h; rfl
      | accept n =>
        simp only at h
        split at h
        · cases h; rfl
        · rw [ih h]; simp only [OffsetWriter.accept, List.append_assoc, List.take_append_drop]
      | drain n =>
        simp only at h
        split at h
        · cases h; rfl
        · rw [ih h]; simp only [OffsetWriter.accept, List.append_assoc, List.take_append_drop]

theorem writeAll {b : Bytes} : Stops (Wr.writeAll b) := by
  intro zw
  refine ⟨.ok (), zw.put b, List.prefix_append _ _, fun evs => ?_⟩
  rcases hl : writeAllLoop zw.writer b evs with ⟨r, rest, w', evs'⟩
  have hm : Wr.writeAll b ⟨zw, evs⟩ = (r, ⟨{ zw with writer := w' }, evs'⟩) := by
    unfold Wr.writeAll
    rw [hl]
  rw [hm]
  rcases writeAll_left hl with rfl | ⟨he, hr⟩
  · left
    have := (Outcome.writeAll (buf := b) (zw := zw)).useOk hm
    exact ⟨rfl, this.2⟩
  · right
    have hs := loop_split hl
    refine ⟨he, ⟨rest, hs⟩, fun h => hr ?_⟩
    have h' : w'.sink.bytes = zw.writer.sink.bytes ++ b := h
    rw [← hs] at h'
    have := congrArg List.length h'
    rw [List.length_append] at this
    exact List.length_eq_zero_iff.1 (by omega)

theorem bind {α β : Type} {m : Wr α} {f : α → Wr β} (hm : Stops m) (hf : ∀ a, Stops (f a)) : Stops (m >>= f) := by
  intro zw
  obtain ⟨r, zw1, h1, h⟩ := hm zw
  cases r with
  | error e =>
    refine ⟨.error e, zw1, h1, fun evs => ?_⟩
    rw [Wr.bind_def]
    rcases hr : m ⟨zw, evs⟩ with ⟨x, s1⟩
    have := h evs
    rw [hr] at this
    rcases this with ⟨rfl, h2⟩ | ⟨⟨e', rfl⟩, h2⟩
    · exact Or.inl ⟨rfl, h2⟩
    · exact Or.inr ⟨⟨_, rfl⟩, h2⟩
  | ok a =>
    obtain ⟨r', zw2, g1, g⟩ := hf a zw1
    refine ⟨r', zw2, h1.trans g1, fun evs => ?_⟩
    rw [Wr.bind_def]
    rcases hr : m ⟨zw, evs⟩ with ⟨x, s1⟩
    have := h evs
    rw [hr] at this
    rcases this with ⟨rfl, h2⟩ | ⟨⟨e', rfl⟩, h2, h3⟩
    · obtain ⟨z, ev⟩ := s1
      cases h2
      exact g ev
    · change s1.zw.held <+: zw1.held at h2
      refine Or.inr ⟨⟨_, rfl⟩, h2.trans g1, fun heq => h3 ?_⟩
      have hle := g1.length_le
      have hle' := h2.length_le
      exact h2.eq_of_length (Nat.le_antisymm hle' (by
        have : (s1.zw.held).length = zw2.held.length := congrArg List.length heq
        omega))

theorem ite {α : Type} {p : Prop} [Decidable p] {m n : Wr α} (hm : Stops m) (hn : Stops n) :
    Stops (if p then m else n) := by split <;> assumption

theorem writeCdEntry (c : CdEntry) : Stops (writeCdEntry c) :=
  bind writeAll fun _ => bind writeAll fun _ => bind writeAll fun _ => bind lift fun _ => bind writeAll fun _ => writeAll

theorem writeCdEntries (cs : List CdEntry) : Stops (writeCdEntries cs) := by
  induction cs with
  | nil => exact pure
  | cons c cs ih => exact bind (writeCdEntry c) fun _ => ih

theorem closeCheckOffset (n : Nat) : Stops (closeCheckOffset n) :=
  ite (bind get fun _ => ite fail (modify fun _ => rfl)) pure

theorem writeZip64End (a b c : Nat) : Stops (writeZip64End a b c) :=
  bind get fun _ => bind writeAll fun _ => bind writeAll fun _ => bind writeAll fun _ => writeAll

theorem closeArchive : Stops closeArchive :=
  bind get fun _ => bind (writeCdEntries _) fun _ => bind get fun _ => bind (closeCheckOffset _) fun _ =>
    bind get fun _ => bind (ite (writeZip64End _ _ _) pure) fun _ => bind writeAll fun _ => bind writeAll fun _ =>
    bind writeAll fun _ => bind get fun _ => pure

end Stops

end AsyncZip
