import Verif.Proofs.Write
import Verif.Proofs.Crc
import Verif.Spec.Codec
/-!
# Streamed entries between opening and closing
-/

namespace AsyncZip
open Wr Spec

/-- The writer after the caller flushed the sink `k` times. -/
def ZipWriter.addFlushes (w : ZipWriter) (k : Nat) : ZipWriter :=
  { w with writer := { w.writer with sink := { w.writer.sink with flushes := w.writer.sink.flushes + k } } }

theorem encodes_trans {C : Codec} {e s t : C.Enc} {i o i' o' : Bytes} (h : Encodes C e i o s) (h' : Encodes C s i' o' t) :
    Encodes C e (i ++ i') (o ++ o') t := by
  induction h' with
  | start => simpa using h
  | feed b _ ih => rw [← List.append_assoc, ← List.append_assoc]; exact .feed b ih
  | flush _ ih => rw [← List.append_assoc]; exact .flush ih

theorem put_put (w : ZipWriter) (x y : Bytes) : (w.put x).put y = w.put (x ++ y) := by
  simp [ZipWriter.put, Nat.add_assoc]

theorem put_nil (w : ZipWriter) : w.put [] = w := by simp [ZipWriter.put]

theorem addFlushes_zero (w : ZipWriter) : w.addFlushes 0 = w := rfl

/-- What some calls did to an encoder: it took in `fed`, and what came out, with the final output if it was closed by these
calls, is `emitted` and what is pending after. A closed encoder does not change but for handing out what is pending. -/
structure EncStep (C : Codec) (s : EncState C) (fed emitted : Bytes) (s' : EncState C) : Prop where
  run : ∃ o, Encodes C s.enc fed o s'.enc ∧
    s.pend ++ (o ++ (if s'.fin = s.fin then [] else C.finish s'.enc)) = emitted ++ s'.pend ∧ (s.fin = true → o = [])
  once : s.fin = true → s'.fin = true ∧ s'.enc = s.enc ∧ fed = []

theorem EncStep.refl {C : Codec} (s : EncState C) : EncStep C s [] [] s :=
  ⟨⟨[], .start, by simp, fun _ => rfl⟩, fun h => ⟨h, rfl, rfl⟩⟩

theorem EncStep.trans {C : Codec} {s t u : EncState C} {f f' e e' : Bytes} (h : EncStep C s f e t) (h' : EncStep C t f' e' u) :
    EncStep C s (f ++ f') (e ++ e') u := by
  obtain ⟨⟨o, h1, h2, h3⟩, h4⟩ := h
  obtain ⟨⟨o', h1', h2', h3'⟩, h4'⟩ := h'
  refine ⟨⟨o ++ o', encodes_trans h1 h1', ?_, fun hs => ?_⟩, fun hs => ?_⟩
  · rw [List.append_assoc e e' u.pend, ← h2', ← List.append_assoc e t.pend, ← h2]
    cases hs : s.fin with
    | true =>
      obtain ⟨g1, g2, g3⟩ := h4 hs
      obtain ⟨k1, k2, k3⟩ := h4' g1
      simp [g1, k1]
    | false =>
      cases ht : t.fin with
      | true =>
        obtain ⟨k1, k2, k3⟩ := h4' ht
        simp [k1, h3' ht, k2]
      | false => simp
  · rw [h3 hs, h3' (h4 hs).1]
    rfl
  · obtain ⟨g1, g2, g3⟩ := h4 hs
    obtain ⟨k1, k2, k3⟩ := h4' g1
    exact ⟨k1, k2.trans g2, by rw [g3, k3]; rfl⟩

/-- From an open encoder: what is emitted and what closing would bring is the output for the input. -/
theorem EncStep.tail {C : Codec} {s s' : EncState C} {f e : Bytes} (h : EncStep C s f e s') (hs : s.fin = false) :
    ∃ o, Encodes C s.enc f o s'.enc ∧ e ++ s'.tail = s.pend ++ (o ++ C.finish s'.enc) := by
  obtain ⟨⟨o, h1, h2, -⟩, -⟩ := h
  refine ⟨o, h1, ?_⟩
  rw [EncState.tail, ← List.append_assoc, ← h2, hs]
  cases s'.fin <;> simp

/-- What some calls did to a streamed entry that stood at `zw`, `st`: `data` was accepted, `emitted` went to the sink. -/
structure StreamStep (C : Codec) (zw : ZipWriter) (st : EntryStream C) (data emitted fed : Bytes) (flushes : Nat)
    (zw' : ZipWriter) (st' : EntryStream C) : Prop where
  writer : zw' = (zw.put emitted).addFlushes flushes
  stream : ∃ enc, st' = { st with hasher := st.hasher.update data, written := st.written + data.length, enc := enc } ∧
    match st.enc with
    | none => enc = none ∧ emitted = data
    | some s => ∃ s', enc = some s' ∧ EncStep C s fed emitted s'

theorem sinkWrite_spec (w : OffsetWriter) (buf : Bytes) (evs : List Ev) :
    (∃ k, k ≤ buf.length ∧ sinkWrite w buf evs = (.ok k, w.accept buf k)) ∨
    ∃ e, WInterrupted (.error e : Res Nat) ∧ sinkWrite w buf evs = (.error e, w) := by
  induction evs with
  | nil => exact Or.inr ⟨_, Or.inl rfl, rfl⟩
  | cons ev evs ih =>
    cases ev with
    | pending => exact ih
    | error c a => exact Or.inr ⟨_, Or.inr (Or.inl ⟨c, rfl⟩), rfl⟩
    | accept n => exact Or.inl ⟨min n buf.length, by omega, rfl⟩
    | drain n => exact Or.inl ⟨min n buf.length, by omega, rfl⟩

/-- One poll of an encoder: some pending output goes to the sink, then input is absorbed. -/
theorem encWrite_spec {C : Codec} (buf : Bytes) (evs : List Ev) : ∀ (w : OffsetWriter) (s : EncState C),
    ∃ x pend, s.pend = x ++ pend ∧
      let w' := ({ sink := { w.sink with bytes := w.sink.bytes ++ x }, offset := w.offset + x.length } : OffsetWriter)
      ((∃ k, k ≤ buf.length ∧ encWrite w s buf evs = (.ok k, w', EncState.feed ⟨s.enc, pend, s.fin⟩ buf k)) ∨
       (∃ c k, encWrite w s buf evs = (.error (sinkErr c), w', EncState.feed ⟨s.enc, pend, s.fin⟩ buf k)) ∨
       encWrite w s buf evs = (.error .cancelled, w', ⟨s.enc, pend, s.fin⟩)) := by
  induction evs with
  | nil => intro w s; exact ⟨[], s.pend, rfl, Or.inr (Or.inr (by simp [encWrite]))⟩
  | cons ev evs ih =>
    intro w s
    cases ev with
    | pending => exact ih w s
    | error c a => exact ⟨[], s.pend, rfl, Or.inr (Or.inl ⟨c, a, by simp [encWrite]⟩)⟩
    | accept n => exact ⟨[], s.pend, rfl, Or.inl ⟨min n buf.length, by omega, by simp [encWrite]⟩⟩
    | drain n =>
      obtain ⟨x, pend, h1, h2⟩ := ih (w.accept s.pend (min n s.pend.length)) ⟨s.enc, s.pend.drop (min n s.pend.length), s.fin⟩
      refine ⟨s.pend.take (min n s.pend.length) ++ x, pend, ?_, ?_⟩
      · simp only at h1
        rw [List.append_assoc, ← h1, List.take_append_drop]
      · simp only [OffsetWriter.accept, List.append_assoc, List.length_append, List.length_take, ← Nat.add_assoc] at h2 ⊢
        rw [show min (min n s.pend.length) s.pend.length = min n s.pend.length by omega]
        exact h2

theorem StreamStep.refl {C : Codec} (zw : ZipWriter) (st : EntryStream C) : StreamStep C zw st [] [] [] 0 zw st := by
  refine ⟨by rw [put_nil]; rfl, st.enc, by simp [Hasher.update_nil], ?_⟩
  cases h : st.enc with
  | none => exact ⟨rfl, rfl⟩
  | some s => exact ⟨s, rfl, .refl s⟩

theorem StreamStep.trans {C : Codec} {zw zw1 zw2 : ZipWriter} {st st1 st2 : EntryStream C} {d d' e e' f f' : Bytes}
    {k k' : Nat} (h : StreamStep C zw st d e f k zw1 st1) (h' : StreamStep C zw1 st1 d' e' f' k' zw2 st2) :
    StreamStep C zw st (d ++ d') (e ++ e') (f ++ f') (k + k') zw2 st2 := by
  obtain ⟨h1, enc, h2, h3⟩ := h
  obtain ⟨h1', enc', h2', h3'⟩ := h'
  subst h1 h2
  simp only at h2' h3'
  refine ⟨?_, enc', ?_, ?_⟩
  · rw [h1']
    simp [ZipWriter.put, ZipWriter.addFlushes, Nat.add_assoc]
  · rw [h2']
    simp [Hasher.update_append, Nat.add_assoc]
  · cases hs : st.enc with
    | none =>
      rw [hs] at h3
      obtain ⟨rfl, rfl⟩ := h3
      simp only at h3'
      obtain ⟨rfl, rfl⟩ := h3'
      exact ⟨rfl, rfl⟩
    | some s =>
      rw [hs] at h3
      obtain ⟨s', rfl, g1⟩ := h3
      simp only at h3'
      obtain ⟨s'', rfl, g2⟩ := h3'
      exact ⟨s'', rfl, g1.trans g2⟩

/-- Nothing happened. -/
theorem StreamStep.idle {C : Codec} {zw : ZipWriter} {st : EntryStream C} : StreamStep C zw st [] [] [] 0 zw st := .refl zw st

/-- Only the writer and the encoder changed. -/
theorem StreamStep.enc {C : Codec} {zw : ZipWriter} {st : EntryStream C} {s s' : EncState C} {e f : Bytes} {w : OffsetWriter} {k : Nat}
    (hs : st.enc = some s) (hw : ({ zw with writer := w } : ZipWriter) = (zw.put e).addFlushes k) (h : EncStep C s f e s') :
    StreamStep C zw st [] e f k { zw with writer := w } { st with enc := some s' } :=
  ⟨hw, some s', by simp [Hasher.update_nil], by rw [hs]; exact ⟨s', rfl, h⟩⟩

/-- A call on a closed encoder. -/
def Late {α : Type} (C : Codec) (st : EntryStream C) (r : Res α) : Prop :=
  (∃ s, st.enc = some s ∧ s.fin = true) ∧ C.latePanics = true ∧ r = .error .panic

theorem late_or {α : Type} {C : Codec} {st : EntryStream C} {s : EncState C} (hs : st.enc = some s) (hf : s.fin = true) :
    WInterrupted (.error (lateFail C) : Res α) ∨ Late C st (.error (lateFail C) : Res α) := by
  unfold lateFail
  cases h : C.latePanics with
  | false => exact Or.inl (Or.inr (Or.inl ⟨0, rfl⟩))
  | true => exact Or.inr ⟨⟨s, hs, hf⟩, h, rfl⟩

theorem streamWrite_spec {C : Codec} (zw : ZipWriter) (st : EntryStream C) (buf : Bytes) (evs : List Ev) :
    ∃ r zw' st', streamWrite zw st buf evs = (r, zw', st') ∧
      ((∃ k e, k ≤ buf.length ∧ r = .ok k ∧ StreamStep C zw st (buf.take k) e (buf.take k) 0 zw' st') ∨
       (∃ x e f, r = .error x ∧ (WInterrupted r ∨ Late C st r) ∧ StreamStep C zw st [] e f 0 zw' st')) := by
  unfold streamWrite
  cases hs : st.enc with
  | none =>
    simp only
    rcases sinkWrite_spec zw.writer buf evs with ⟨k, hk, h⟩ | ⟨e, he, h⟩
    · rw [h]
      refine ⟨_, _, _, rfl, Or.inl ⟨k, buf.take k, hk, rfl, ?_, none, ?_, ?_⟩⟩
      · simp [ZipWriter.put, ZipWriter.addFlushes, OffsetWriter.accept, Nat.min_eq_left hk]
      · simp [Nat.min_eq_left hk]
      · rw [hs]; exact ⟨rfl, rfl⟩
    · rw [h]
      refine ⟨_, _, _, rfl, Or.inr ⟨e, [], [], rfl, Or.inl he, ?_, none, ?_, ?_⟩⟩
      · simp [ZipWriter.put, ZipWriter.addFlushes]
      · obtain ⟨a, b, c, d, e, f, g, h⟩ := st
        simp only at hs
        subst hs
        simp [Hasher.update_nil]
      · rw [hs]; exact ⟨rfl, rfl⟩
  | some s =>
    simp only
    split
    · rename_i hf
      exact ⟨_, _, _, rfl, Or.inr ⟨_, [], [], rfl, late_or hs hf, .idle⟩⟩
    rename_i hf
    obtain ⟨x, pend, h1, h2⟩ := encWrite_spec (C := C) buf evs zw.writer s
    simp only at h2
    have hstep : ∀ k, EncStep C s (buf.take k) x (EncState.feed ⟨s.enc, pend, s.fin⟩ buf k) := by
      intro k
      refine ⟨⟨(C.feed s.enc (buf.take k)).2, ?_, ?_, fun h => absurd h hf⟩, fun h => absurd h hf⟩
      · have := Encodes.feed (C := C) (e := s.enc) (buf.take k) .start
        simpa [EncState.feed] using this
      · simp [EncState.feed, h1, List.append_assoc]
    rcases h2 with ⟨k, hk, h⟩ | ⟨c, k, h⟩ | h
    · rw [h]
      refine ⟨_, _, _, rfl, Or.inl ⟨k, x, hk, rfl, ?_, some (EncState.feed ⟨s.enc, pend, s.fin⟩ buf k), ?_, ?_⟩⟩
      · simp [ZipWriter.put, ZipWriter.addFlushes]
      · simp [Nat.min_eq_left hk]
      · rw [hs]; exact ⟨_, rfl, hstep k⟩
    · rw [h]
      exact ⟨_, _, _, rfl, Or.inr ⟨_, x, buf.take k, rfl, Or.inl (Or.inr (Or.inl ⟨c, rfl⟩)),
        .enc hs (by simp [ZipWriter.put, ZipWriter.addFlushes]) (hstep k)⟩⟩
    · rw [h]
      refine ⟨_, _, _, rfl, Or.inr ⟨_, x, [], rfl, Or.inl (Or.inl rfl),
        .enc hs (by simp [ZipWriter.put, ZipWriter.addFlushes]) ⟨⟨[], .start, ?_, fun _ => rfl⟩, fun h => absurd h hf⟩⟩⟩
      simp [h1]

theorem sinkFlush_spec (w : OffsetWriter) (evs : List Ev) :
    sinkFlush w evs = (.ok (), { w with sink := { w.sink with flushes := w.sink.flushes + 1 } }) ∨
    ∃ e, WInterrupted (.error e : Res Unit) ∧ sinkFlush w evs = (.error e, w) := by
  induction evs with
  | nil => exact Or.inr ⟨_, Or.inl rfl, rfl⟩
  | cons ev evs ih =>
    cases ev with
    | pending => exact ih
    | error c a => exact Or.inr ⟨_, Or.inr (Or.inl ⟨c, rfl⟩), rfl⟩
    | accept n => exact Or.inl rfl
    | drain n => exact Or.inl rfl

theorem streamFlush_spec {C : Codec} (zw : ZipWriter) (st : EntryStream C) (evs : List Ev) :
    ∃ r zw' st' e, streamFlush zw st evs = (r, zw', st') ∧
      ((r = .ok () ∧ StreamStep C zw st [] e [] 1 zw' st') ∨
       ((WInterrupted r ∨ Late C st r) ∧ StreamStep C zw st [] e [] 0 zw' st')) := by
  unfold streamFlush
  cases hs : st.enc with
  | none =>
    have hst : ∀ (k : Nat) (w : OffsetWriter), ({ zw with writer := w } : ZipWriter) = (zw.put []).addFlushes k →
        StreamStep C zw st [] [] [] k { zw with writer := w } st := by
      intro k w hw
      refine ⟨hw, none, ?_, ?_⟩
      · obtain ⟨a, b, c, d, e, f, g, h⟩ := st
        simp only at hs
        subst hs
        simp [Hasher.update_nil]
      · rw [hs]; exact ⟨rfl, rfl⟩
    simp only
    rcases sinkFlush_spec zw.writer evs with h | ⟨x, hx, h⟩
    · rw [h]
      exact ⟨_, _, _, [], rfl, Or.inl ⟨rfl, hst 1 _ (by simp [ZipWriter.put, ZipWriter.addFlushes])⟩⟩
    · rw [h]
      exact ⟨_, _, _, [], rfl, Or.inr ⟨Or.inl hx, hst 0 _ (by simp [ZipWriter.put, ZipWriter.addFlushes])⟩⟩
  | some s =>
    simp only
    split
    · rename_i hf
      exact ⟨_, _, _, [], rfl, Or.inr ⟨late_or hs hf, .idle⟩⟩
    rename_i hf
    cases h : writeAllLoop zw.writer (s.pend ++ (C.flush s.enc).2) evs with
    | mk r t =>
      obtain ⟨rest, w', evs'⟩ := t
      obtain ⟨x, h1, h2, h3⟩ := writeAllLoop_spec _ _ _ _ _ _ _ h
      have hstep : EncStep C s [] x ⟨(C.flush s.enc).1, rest, s.fin⟩ := by
        refine ⟨⟨(C.flush s.enc).2, ?_, ?_, fun h => absurd h hf⟩, fun h => absurd h hf⟩
        · have := Encodes.flush (C := C) (e := s.enc) .start
          simpa using this
        · simp [h1]
      cases r with
      | ok u =>
        cases u
        rcases h3 with ⟨_, h3⟩ | h3
        · rw [h3] at hstep
          simp only
          rcases sinkFlush_spec w' evs' with h | ⟨y, hy, h⟩
          · rw [h]
            exact ⟨_, _, _, x, rfl, Or.inl ⟨rfl, .enc hs (by simp [ZipWriter.put, ZipWriter.addFlushes, h2]) hstep⟩⟩
          · rw [h]
            exact ⟨_, _, _, x, rfl, Or.inr ⟨Or.inl hy, .enc hs (by simp [ZipWriter.put, ZipWriter.addFlushes, h2]) hstep⟩⟩
        · exact absurd h3 not_winterrupted_ok
      | error e =>
        rcases h3 with ⟨h3, _⟩ | h3
        · cases h3
        · exact ⟨_, _, _, x, rfl, Or.inr ⟨Or.inl h3, .enc hs (by simp [ZipWriter.put, ZipWriter.addFlushes, h2]) hstep⟩⟩

theorem streamShut_spec {C : Codec} (zw : ZipWriter) (st : EntryStream C) (evs : List Ev) :
    ∃ r zw' st' e, streamShut zw st evs = (r, zw', st') ∧ (r = .ok () ∨ WInterrupted r) ∧
      StreamStep C zw st [] e [] 0 zw' st' := by
  unfold streamShut
  cases hs : st.enc with
  | none => exact ⟨_, _, _, [], rfl, Or.inl rfl, .idle⟩
  | some s =>
    simp only
    cases h : writeAllLoop zw.writer s.tail evs with
    | mk r t =>
      obtain ⟨rest, w', evs'⟩ := t
      obtain ⟨x, h1, h2, h3⟩ := writeAllLoop_spec _ _ _ _ _ _ _ h
      refine ⟨_, _, _, x, rfl, h3.imp And.left id, .enc hs (by simp [ZipWriter.put, ZipWriter.addFlushes, h2])
        ⟨⟨[], .start, ?_, fun _ => rfl⟩, fun h => ⟨rfl, rfl, rfl⟩⟩⟩
      rw [← h1, EncState.tail]
      cases s.fin <;> simp

/-- All the calls between opening and closing a streamed entry. -/
theorem runActs_spec {C : Codec} (acts : List StreamAct) : ∀ (zw : ZipWriter) (st : EntryStream C),
    ∃ rs zw' st' e f, runActs zw st acts = (rs, zw', st') ∧ rs.length = acts.length ∧
      StreamStep C zw st (accepted acts rs) e f (flushCount acts rs) zw' st' ∧ (AllOk rs → f = accepted acts rs) := by
  induction acts with
  | nil => intro zw st; exact ⟨[], zw, st, [], [], rfl, rfl, StreamStep.refl _ _, fun _ => rfl⟩
  | cons a acts ih =>
    intro zw st
    have htail : ∀ {r rs}, AllOk (r :: rs) → AllOk rs := fun h x hx => h x (List.mem_cons_of_mem _ hx)
    cases a with
    | write buf evs =>
      obtain ⟨r, zw1, st1, h1, h2⟩ := streamWrite_spec zw st buf evs
      obtain ⟨rs, zw2, st2, e', f', h3, hl, h4, h5⟩ := ih zw1 st1
      have hrun : runActs zw st (.write buf evs :: acts) = (r :: rs, zw2, st2) := by
        simp only [runActs, h1, h3]
      rcases h2 with ⟨k, e, hk, rfl, h2⟩ | ⟨x, e, f, rfl, hi, h2⟩
      · refine ⟨_, _, _, e ++ e', buf.take k ++ f', hrun, by simp [hl], ?_, ?_⟩
        · have := h2.trans h4
          rw [Nat.zero_add] at this
          exact this
        · intro ho
          rw [h5 (htail ho)]
          rfl
      · refine ⟨_, _, _, e ++ e', f ++ f', hrun, by simp [hl], ?_, ?_⟩
        · have := h2.trans h4
          rw [Nat.zero_add] at this
          exact this
        · intro ho
          obtain ⟨k, hk⟩ := ho _ List.mem_cons_self
          cases hk
    | flush evs =>
      obtain ⟨r, zw1, st1, e, h1, h2⟩ := streamFlush_spec zw st evs
      obtain ⟨rs, zw2, st2, e', f', h3, hl, h4, h5⟩ := ih zw1 st1
      have hrun : runActs zw st (.flush evs :: acts) = (r.map (fun _ => 0) :: rs, zw2, st2) := by
        simp only [runActs, h1, h3]
      rcases h2 with ⟨rfl, h2⟩ | ⟨hi, h2⟩
      · exact ⟨_, _, _, e ++ e', [] ++ f', hrun, by simp [hl], h2.trans h4, fun ho => h5 (htail ho)⟩
      · cases r with
        | ok u =>
          rcases hi with hi | ⟨-, -, hi⟩
          · exact absurd hi not_winterrupted_ok
          · cases hi
        | error x =>
          have := h2.trans h4
          rw [Nat.zero_add] at this
          exact ⟨_, _, _, e ++ e', [] ++ f', hrun, by simp [hl], this, fun ho => h5 (htail ho)⟩
    | shut evs =>
      obtain ⟨r, zw1, st1, e, h1, -, h2⟩ := streamShut_spec zw st evs
      obtain ⟨rs, zw2, st2, e', f', h3, hl, h4, h5⟩ := ih zw1 st1
      have hrun : runActs zw st (.shut evs :: acts) = (r.map (fun _ => 0) :: rs, zw2, st2) := by
        simp only [runActs, h1, h3]
      have := h2.trans h4
      rw [Nat.zero_add] at this
      exact ⟨_, _, _, e ++ e', [] ++ f', hrun, by simp [hl], this, fun ho => h5 (htail ho)⟩

end AsyncZip
