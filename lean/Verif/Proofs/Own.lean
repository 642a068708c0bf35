import Verif.Proofs.Sessions
import Verif.Proofs.Reading
import Verif.Proofs.OpenSpec
import Verif.Spec.Own

/-! What a read depends on: running over other data that agrees on the bytes asked for. -/

namespace AsyncZip
open Spec Rd

/-- The same source with other data. -/
def RState.on (s : RState) (b : Bytes) : RState := { s with data := b }

/-- Started at `s`, `m` does the same on data `b`. -/
def SameOn {α : Type} (m : Rd α) (s : RState) (b : Bytes) : Prop := m (s.on b) = ((m s).1, (m s).2.on b)

theorem window_within {data : Bytes} {off N p n : Nat} (h1 : off ≤ p) (h2 : p + n ≤ off + N) :
    window data p n = ((window data off N).drop (p - off)).take n := by
  unfold window
  rw [List.drop_take, List.drop_drop, List.take_take, Nat.min_eq_left (by omega), Nat.add_sub_cancel' h1]

theorem window_agree {a b : Bytes} {off N p n : Nat} (h : window a off N = window b off N) (h1 : off ≤ p)
    (h2 : p + n ≤ off + N) : window a p n = window b p n := by
  rw [window_within h1 h2, window_within h1 h2, h]

theorem SameOn.bind {α β : Type} {m : Rd α} {f : α → Rd β} {s : RState} {b : Bytes} (h : SameOn m s b)
    (hf : ∀ a s', m s = (.ok a, s') → SameOn (f a) s' b) : SameOn (m >>= f) s b := by
  unfold SameOn at *
  rw [bind_def, bind_def, h]
  cases hm : m s with
  | mk r s' =>
    cases r with
    | ok a => exact hf a s' hm
    | error e => rfl

theorem SameOn.pure {α : Type} {a : α} {s : RState} {b : Bytes} : SameOn (Pure.pure a : Rd α) s b := rfl
theorem SameOn.throwErr {α : Type} {e : ZipError} {s : RState} {b : Bytes} : SameOn (Rd.throwErr e : Rd α) s b := rfl

theorem readSched_on {n : Nat} {s : RState} {b : Bytes} (h : window s.data s.pos n = window b s.pos n) (rs : List RdResp) :
    readSched n (s.on b) rs = ((readSched n s rs).1, (readSched n s rs).2.on b) := by
  induction rs with
  | nil => rfl
  | cons r rs ih =>
    cases r with
    | pending => exact ih
    | error c => rfl
    | chunk c =>
      have : (b.drop s.pos).take (min n (c + 1)) = (s.data.drop s.pos).take (min n (c + 1)) :=
        (window_agree (n := min n (c + 1)) h (Nat.le_refl _) (by omega)).symm
      simp only [readSched, RState.on, this]

theorem readOnce_on {n : Nat} {s : RState} {b : Bytes} (h : window s.data s.pos n = window b s.pos n) :
    SameOn (readOnce n) s b := by
  obtain ⟨d, p, sc, l⟩ := s
  cases sc with
  | none =>
    have : (b.drop p).take n = (d.drop p).take n := h.symm
    simp only [SameOn, readOnce, RState.on, this]
  | some rs => exact readSched_on h rs

theorem seekTo_on (t : Nat) (s : RState) (b : Bytes) : SameOn (seekTo t) s b := by
  obtain ⟨d, p, sc, l⟩ := s
  cases sc with
  | none => rfl
  | some rs =>
    show seekSched t ⟨b, p, some rs, l⟩ rs = ((seekSched t ⟨d, p, some rs, l⟩ rs).1, (seekSched t ⟨d, p, some rs, l⟩ rs).2.on b)
    generalize some rs = z
    induction rs with
    | nil => rfl
    | cons r rs ih =>
      cases r with
      | pending => exact ih
      | error c => rfl
      | chunk c => rfl

theorem awaitChunk_on (n : Nat) (s : RState) (b : Bytes) : SameOn (awaitChunk n) s b := by
  obtain ⟨d, p, sc, l⟩ := s
  cases sc with
  | none => rfl
  | some rs =>
    show awaitSched n ⟨b, p, some rs, l⟩ rs = ((awaitSched n ⟨d, p, some rs, l⟩ rs).1, (awaitSched n ⟨d, p, some rs, l⟩ rs).2.on b)
    generalize some rs = z
    induction rs with
    | nil => rfl
    | cons r rs ih =>
      cases r with
      | pending => exact ih
      | error c => rfl
      | chunk c => rfl

theorem readExactLoop_on (need : Nat) : ∀ (acc : Bytes) (s : RState) (b : Bytes),
    window s.data s.pos need = window b s.pos need → SameOn (readExactLoop need acc) s b := by
  induction need using Nat.strongRecOn with
  | _ need ih =>
  intro acc s b h
  rw [readExactLoop]
  split
  · exact SameOn.pure
  · refine SameOn.bind (readOnce_on h) fun x s' hx => ?_
    split
    · exact SameOn.throwErr
    · obtain ⟨k, k1, k2, k3, k4, k5⟩ := readOnce_ok hx
      have := readOnce_length_le hx
      refine ih _ (by omega) _ _ _ ?_
      rw [k4, k5]
      exact window_agree h (by omega) (by omega)

theorem readExact_on {n : Nat} {s : RState} {b : Bytes} (h : window s.data s.pos n = window b s.pos n) :
    SameOn (readExact n) s b := readExactLoop_on n [] s b h

/-- Two runs that end alike: both give as many bytes, or both fail in the same way. -/
def Alike (b : Bytes) (r r' : Res Bytes × RState) : Prop :=
  (∃ x y s, x.length = y.length ∧ r = (.ok x, s) ∧ r' = (.ok y, s.on b)) ∨ ∃ e s, r = (.error e, s) ∧ r' = (.error e, s.on b)

theorem readSched_alike {n : Nat} {s : RState} {b : Bytes}
    (h : (window s.data s.pos n).length = (window b s.pos n).length) (rs : List RdResp) :
    Alike b (readSched n s rs) (readSched n (s.on b) rs) := by
  induction rs with
  | nil => exact Or.inr ⟨_, _, rfl, rfl⟩
  | cons r rs ih =>
    cases r with
    | pending => exact ih
    | error c => exact Or.inr ⟨_, _, rfl, rfl⟩
    | chunk c =>
      have hl : ((s.data.drop s.pos).take (min n (c + 1))).length = ((b.drop s.pos).take (min n (c + 1))).length := by
        simp only [window, List.length_take] at h ⊢
        omega
      refine Or.inl ⟨_, _, _, hl, rfl, ?_⟩
      simp only [readSched, RState.on, hl]

theorem readOnce_alike {n : Nat} {s : RState} {b : Bytes}
    (h : (window s.data s.pos n).length = (window b s.pos n).length) : Alike b (readOnce n s) (readOnce n (s.on b)) := by
  obtain ⟨d, p, sc, l⟩ := s
  cases sc with
  | none =>
    have hl : ((d.drop p).take n).length = ((b.drop p).take n).length := h
    refine Or.inl ⟨_, _, _, hl, rfl, ?_⟩
    simp only [readOnce, RState.on, hl]
  | some rs => exact readSched_alike h rs

theorem readExactLoop_alike (need : Nat) : ∀ (acc acc' : Bytes) (s : RState) (b : Bytes), acc.length = acc'.length →
    (window s.data s.pos need).length = (window b s.pos need).length →
    Alike b (readExactLoop need acc s) (readExactLoop need acc' (s.on b)) := by
  induction need using Nat.strongRecOn with
  | _ need ih =>
  intro acc acc' s b ha h
  rw [readExactLoop, readExactLoop]
  split
  · exact Or.inl ⟨acc, acc', s, ha, rfl, rfl⟩
  · rw [bind_def, bind_def]
    rcases readOnce_alike h with ⟨x, y, s', hl, h1, h2⟩ | ⟨e, s', h1, h2⟩
    · rw [h1, h2]
      simp only []
      rw [← hl]
      by_cases hx : x.length = 0
      · rw [if_pos hx, if_pos hx]
        exact Or.inr ⟨_, _, rfl, rfl⟩
      · rw [if_neg hx, if_neg hx]
        obtain ⟨k, k1, k2, k3, k4, k5⟩ := readOnce_ok h1
        have := readOnce_length_le h1
        refine ih _ (by omega) _ _ _ _ (by simp [ha, hl]) ?_
        rw [k4, k5]
        simp only [window, List.length_take, List.length_drop] at h ⊢
        omega
    · rw [h1, h2]
      exact Or.inr ⟨_, _, rfl, rfl⟩

theorem fieldAt_agree {a b : Bytes} {off N p w : Nat} (h : window a off N = window b off N) (h1 : off ≤ p)
    (h2 : p + w ≤ off + N) : fieldAt a p w = fieldAt b p w := by
  unfold fieldAt
  congr 1
  apply List.map_congr_left
  intro i hi
  rw [List.mem_range] at hi
  have key : ∀ d : Bytes, d.getD (p + i) 0 = (window d off N).getD (p + i - off) 0 := by
    intro d
    simp only [window, List.getD_eq_getElem?_getD, List.getElem?_take, List.getElem?_drop]
    rw [if_pos (by omega), show off + (p + i - off) = p + i by omega]
  rw [key a, key b, h]

theorem seekToDataOffset_on (e : StoredZipEntry) (s : RState) (b : Bytes) (h : SameData s.data b e) :
    SameOn (seekToDataOffset e) s b := by
  refine SameOn.bind (seekTo_on _ _ _) fun _ s1 h1 => ?_
  obtain ⟨-, d1, p1⟩ := seekTo_ok h1
  refine SameOn.bind (readExact_on (by rw [d1, p1]; exact h.signature)) fun sg s2 h2 => ?_
  obtain ⟨-, -, d2, p2⟩ := readExact_ok h2
  simp only []
  split
  · have hal : Alike b (readExact 26 s2) (readExact 26 (s2.on b)) := by
      refine readExactLoop_alike 26 [] [] s2 b rfl ?_
      have := h.present
      have h4 := congrArg List.length h.signature
      rw [d2, d1, p2, p1]
      simp only [window, List.length_take, List.length_drop] at this h4 ⊢
      omega
    unfold LocalFileHeader.fromReader SameOn
    simp only [bind_def]
    rcases hal with ⟨x, y, s3, hl, h3, h4⟩ | ⟨x, s3, h3, h4⟩
    · rw [h3, h4]
      obtain ⟨hx, lx, _⟩ := readExact_ok h3
      obtain ⟨hy, ly, _⟩ := readExact_ok h4
      rw [p2, p1, d2, d1] at hx
      rw [show (s2.on b).data = b from rfl, show (s2.on b).pos = s2.pos from rfl, p2, p1] at hy
      have hn : (LocalFileHeader.ofBytes x).fileNameLength.toNat + (LocalFileHeader.ofBytes x).extraFieldLength.toNat =
          (LocalFileHeader.ofBytes y).fileNameLength.toNat + (LocalFileHeader.ofBytes y).extraFieldLength.toNat := by
        have q1 := read16 (data := s.data) hx lx 22 (by omega)
        have q2 := read16 (data := s.data) hx lx 24 (by omega)
        have r1 := read16 (data := b) hy ly 22 (by omega)
        have r2 := read16 (data := b) hy ly 24 (by omega)
        have e1 := fieldAt_agree (p := e.fileOffset + 4 + 22) (w := 2) h.lengths (by omega) (by omega)
        have e2 := fieldAt_agree (p := e.fileOffset + 4 + 24) (w := 2) h.lengths (by omega) (by omega)
        rw [← q1, ← r1] at e1
        rw [← q2, ← r2] at e2
        exact congrArg₂ (· + ·) e1 e2
      simp only [pure_def]
      rw [hn]
      have := seekTo_on (s3.pos + ((LocalFileHeader.ofBytes y).fileNameLength.toNat +
        (LocalFileHeader.ofBytes y).extraFieldLength.toNat)) s3 b
      unfold SameOn at this
      unfold seekForward
      rw [show (s3.on b).pos = s3.pos from rfl, this]
      cases seekTo (s3.pos + ((LocalFileHeader.ofBytes y).fileNameLength.toNat +
        (LocalFileHeader.ofBytes y).extraFieldLength.toNat)) s3 with
      | mk r t => cases r <;> rfl
    · rw [h3, h4]
  · exact SameOn.throwErr

theorem readerWithEntry_on (f : ZipFile) (i : Nat) (s : RState) (b : Bytes)
    (h : ∀ e, f.entries[i]? = some e → SameData s.data b e) : SameOn (readerWithEntry f i) s b := by
  unfold readerWithEntry
  cases he : f.entries[i]? with
  | none => exact SameOn.throwErr
  | some e => exact SameOn.bind (seekToDataOffset_on e s b (h e he)) fun _ _ _ => SameOn.pure

/-- What is left for the entry reader to look at is the same in `b`. -/
def Agrees (er : EntryReader) (s : RState) (b : Bytes) : Prop := window s.data s.pos er.limit = window b s.pos er.limit

theorem read_on {C : Codec} {er : EntryReader} {n : Nat} {s : RState} {b : Bytes} (h : Agrees er s b) :
    SameOn (er.read C n) s b := by
  unfold SameOn EntryReader.read
  split
  · split
    · rfl
    · have := readOnce_on (n := min n er.limit) (s := s) (b := b) (window_agree h (Nat.le_refl _) (by omega))
      unfold SameOn at this
      rw [this]
      cases readOnce (min n er.limit) s with
      | mk r s' => cases r <;> rfl
  · split
    · rfl
    · have := awaitChunk_on n s b
      unfold SameOn at this
      rw [this]
      have hr : er.run C (s.on b) = er.run C s := by
        unfold EntryReader.run
        cases er.dec with
        | some d => rfl
        | none => exact congrArg (C.decode er.compression) h.symm
      rw [hr]
      cases awaitChunk n s with
      | mk r s' =>
        cases r with
        | error e => rfl
        | ok k =>
          simp only []
          unfold EntryReader.deliver
          split
          · split
            · rfl
            · rfl
          · rfl

theorem read_agrees {C : Codec} {er er' : EntryReader} {n : Nat} {s s' : RState} {b x : Bytes} (h : Agrees er s b)
    (hr : er.read C n s = (.ok (x, er'), s')) : Agrees er' s' b := by
  unfold Agrees at *
  unfold EntryReader.read at hr
  split at hr
  · split at hr
    · cases hr; exact h
    · split at hr
      · rename_i h1
        have := readOnce_length_le h1
        obtain ⟨k, k1, k2, k3, k4, k5⟩ := readOnce_ok h1
        cases hr
        rw [k4, k5]
        exact window_agree h (by omega) (by show _ + (er.limit - _) ≤ _; omega)
      · cases hr
  · split at hr
    · cases hr; exact h
    · split at hr
      · cases hr
      · rename_i k s1 h1
        obtain ⟨-, -, d1, p1⟩ := awaitChunk_ok h1
        unfold EntryReader.deliver at hr
        split at hr
        · split at hr
          · cases hr
            show window s1.data (s1.pos + _) (er.limit - _) = _
            rw [d1, show (s1.advance (er.run C s).used).pos = s.pos + (er.run C s).used by rw [← p1]; rfl, p1]
            by_cases hl : (er.run C s).used ≤ er.limit
            · exact window_agree h (by omega) (by omega)
            · rw [show er.limit - (er.run C s).used = 0 by omega]
              simp [window]
          · cases hr
        · cases hr
          rw [d1, p1]
          exact h

theorem readLoop_on {C : Codec} {chunk : Nat} (er : EntryReader) (acc : Bytes) (s : RState) (b : Bytes) (h : Agrees er s b) :
    er.readLoop C chunk acc (s.on b) = ((er.readLoop C chunk acc s).1, (er.readLoop C chunk acc s).2.on b) ∧
    (∀ x er' s', er.readLoop C chunk acc s = (.ok (x, er'), s') → Agrees er' s' b) ∧
    er.readPart C chunk acc (s.on b) = er.readPart C chunk acc s ∧
    (∀ e s', er.readLoop C chunk acc s = (.error e, s') → Agrees (er.readPart C chunk acc s).2 s' b) := by
  induction hm : er.remaining C s using Nat.strongRecOn generalizing er acc s with
  | _ m ih =>
  have hr := read_on (C := C) (n := chunk) h
  unfold SameOn at hr
  cases h1 : er.read C chunk s with
  | mk r s1 =>
  rw [h1] at hr
  cases r with
  | error e =>
    rw [readLoop_failed h1, readLoop_failed hr, readPart_failed h1, readPart_failed hr]
    obtain ⟨d1, p1, -⟩ := read_err h1
    refine ⟨rfl, (fun _ _ _ h => by cases h), rfl, fun _ _ h2 => ?_⟩
    cases h2
    show window s1.data s1.pos er.limit = window b s1.pos er.limit
    rw [d1, p1]
    exact h
  | ok p =>
    obtain ⟨x, er1⟩ := p
    have ha := read_agrees h h1
    by_cases hx : x = []
    · subst hx
      rw [readLoop_stop h1, readLoop_stop hr, readPart_stop h1, readPart_stop hr]
      exact ⟨rfl, (fun _ _ _ h => by cases h; exact ha), rfl, (fun _ _ h => by cases h)⟩
    · rw [readLoop_step h1 hx, readLoop_step hr hx, readPart_step h1 hx, readPart_step hr hx]
      exact ih _ (by rw [← hm]; exact EntryReader.read_remaining_lt h1 hx) _ _ _ ha rfl

/-- A reader's state, over other data. -/
def onState (st : Option EntryReader × RState) (b : Bytes) : Option EntryReader × RState := (st.1, st.2.on b)

theorem callReader_on {C : Codec} {er : EntryReader} {c : Call} {s : RState} {b : Bytes} (h : Agrees er s b) :
    callReader C er c (s.on b) = ((callReader C er c s).1, onState (callReader C er c s).2 b) ∧
    ∀ er', (callReader C er c s).2.1 = some er' → Agrees er' (callReader C er c s).2.2 b := by
  cases c with
  | «open» i => exact ⟨rfl, fun er' he => by cases he; exact h⟩
  | computeHash => exact ⟨rfl, fun er' he => by cases he; exact h⟩
  | read n =>
    have hr := read_on (C := C) (n := n) h
    unfold SameOn at hr
    unfold callReader
    simp only []
    rw [hr]
    cases h1 : er.read C n s with
    | mk r s1 =>
      cases r with
      | ok p => exact ⟨rfl, fun er' he => by cases he; exact read_agrees h h1⟩
      | error e =>
        obtain ⟨d1, p1, -⟩ := read_err h1
        refine ⟨rfl, fun er' he => ?_⟩
        cases he
        show window s1.data s1.pos er.limit = window b s1.pos er.limit
        rw [d1, p1]
        exact h
  | readToEnd n =>
    have hr := readLoop_on (C := C) (chunk := n) er [] s b h
    unfold callReader EntryReader.readToEnd
    simp only []
    rw [hr.1, hr.2.2.1]
    cases h1 : er.readLoop C n [] s with
    | mk r s1 =>
      cases r with
      | ok p => exact ⟨rfl, fun er' he => by cases he; exact hr.2.1 _ _ _ h1⟩
      | error e => exact ⟨rfl, fun er' he => by cases he; exact hr.2.2.2 _ _ h1⟩

theorem callOpen_on {f : ZipFile} {i : Nat} {s : RState} {b : Bytes}
    (h : ∀ e, f.entries[i]? = some e → SameData s.data b e) :
    callOpen f i (s.on b) = ((callOpen f i s).1, onState (callOpen f i s).2 b) ∧
    ∀ er', (callOpen f i s).2.1 = some er' → Agrees er' (callOpen f i s).2.2 b := by
  have hr := readerWithEntry_on f i s b h
  unfold SameOn at hr
  unfold callOpen
  rw [hr]
  cases h1 : readerWithEntry f i s with
  | mk r s1 =>
    cases r with
    | error e => exact ⟨rfl, fun er' he => by cases he⟩
    | ok p =>
      obtain ⟨er, e⟩ := p
      refine ⟨rfl, fun er' he => ?_⟩
      cases he
      obtain ⟨se, e1, rfl, rfl, -, d1, p1⟩ := readerWithEntry_ok h1
      show window s1.data s1.pos se.entry.compressedSize.toNat = window b s1.pos se.entry.compressedSize.toNat
      rw [d1, p1]
      exact (h se e1).data

theorem SameRegion.same {a b : Bytes} {e : StoredZipEntry} (h : SameRegion a b e) : SameData a b e where
  signature := window_agree h (Nat.le_refl _) (by omega)
  present := congrArg List.length (window_agree h (n := 30) (Nat.le_refl _) (by omega))
  lengths := window_agree h (by omega) (by omega)
  data := by unfold dataStart; exact window_agree h (by omega) (by omega)

theorem seekCall_on {C : Codec} {f : ZipFile} {c : Call} {st : Option EntryReader × RState} {b : Bytes}
    (hc : ∀ i, c = .open i → ∀ e, f.entries[i]? = some e → SameData st.2.data b e)
    (h : ∀ er, st.1 = some er → Agrees er st.2 b) :
    seekCall C f c (onState st b) = ((seekCall C f c st).1, onState (seekCall C f c st).2 b) ∧
    ∀ er, (seekCall C f c st).2.1 = some er → Agrees er (seekCall C f c st).2.2 b := by
  obtain ⟨o, s⟩ := st
  cases c with
  | «open» i => exact callOpen_on (hc i rfl)
  | read n =>
    cases o with
    | none => exact ⟨rfl, fun er he => by cases he⟩
    | some er => exact callReader_on (C := C) (c := .read n) (h er rfl)
  | readToEnd n =>
    cases o with
    | none => exact ⟨rfl, fun er he => by cases he⟩
    | some er => exact callReader_on (C := C) (c := .readToEnd n) (h er rfl)
  | computeHash =>
    cases o with
    | none => exact ⟨rfl, fun er he => by cases he⟩
    | some er => exact callReader_on (C := C) (c := .computeHash) (h er rfl)

theorem seekSession_on {C : Codec} {f : ZipFile} (cs : List Call) : ∀ {st : Option EntryReader × RState} {b : Bytes},
    (∀ i, .open i ∈ cs → ∀ e, f.entries[i]? = some e → SameData st.2.data b e) →
    (∀ er, st.1 = some er → Agrees er st.2 b) →
    (seekSession C f cs (onState st b)).1 = (seekSession C f cs st).1 := by
  induction cs with
  | nil => intro st b _ _; rfl
  | cons c cs ih =>
    intro st b hc h
    obtain ⟨h1, h2⟩ := seekCall_on (C := C) (c := c) (fun i hi => hc i (hi ▸ List.mem_cons_self)) h
    show (seekCall C f c (onState st b)).1 :: (seekSession C f cs (seekCall C f c (onState st b)).2).1 = _ :: _
    rw [h1]
    congr 1
    exact ih (fun i hi => by rw [seekCall_data]; exact hc i (List.mem_cons_of_mem _ hi)) h2

/-- A call of `sharedCall` on an open entry reader. -/
def useReader (C : Codec) (call : Call) (user : Nat) (w : World) : Seen × World :=
  match w user with
  | none => (.nothing, w)
  | some (er, s) =>
    match callReader C er call s with
    | (seen, some er', s') => (seen, w.set user (some (er', s')))
    | (seen, none, _) => (seen, w.set user none)

end AsyncZip
