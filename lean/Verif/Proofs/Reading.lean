import Verif.Spec.Reading
import Verif.Proofs.OpenSpec
import Verif.Proofs.OpenRuns
import Verif.Proofs.Progress
import Verif.Proofs.History
import Verif.Proofs.Crc
/-!
# Entry readers: what any use of one delivers
-/

namespace AsyncZip
open Spec Rd

/-- What is still to come: remaining output, source bytes still to be consumed, and whether it ends well. -/
def EntryReader.rest (C : Codec) (er : EntryReader) (s : RState) : DecodeResult :=
  if er.compression = .stored then
    ⟨window s.data s.pos er.limit, (window s.data s.pos er.limit).length, true⟩
  else er.run C s

theorem rest_new (C : Codec) (m : Compression) (n : Nat) (s : RState) :
    (EntryReader.new m n).rest C s = entryData C m s.data s.pos n := rfl

theorem rest_congr {C : Codec} {er : EntryReader} {s s' : RState} (hd : s'.data = s.data) (hp : s'.pos = s.pos) :
    er.rest C s' = er.rest C s := by
  unfold EntryReader.rest EntryReader.run
  rw [hd, hp]

theorem rest_computeHash {C : Codec} {er : EntryReader} {s : RState} : er.computeHash.2.rest C s = er.rest C s := rfl

theorem readSched_err {n : Nat} {s s' : RState} {rs : List RdResp} {e : Fail} (h : readSched n s rs = (.error e, s')) :
    s'.data = s.data ∧ s'.pos = s.pos := by
  induction rs with
  | nil => simp only [readSched, Prod.mk.injEq] at h; rw [← h.2]; exact ⟨rfl, rfl⟩
  | cons r rs ih =>
    cases r with
    | pending => exact ih (by simpa [readSched] using h)
    | error c => simp only [readSched, Prod.mk.injEq] at h; rw [← h.2]; exact ⟨rfl, rfl⟩
    | chunk c => simp [readSched] at h

theorem readOnce_err {n : Nat} {s s' : RState} {e : Fail} (h : readOnce n s = (.error e, s')) :
    s'.data = s.data ∧ s'.pos = s.pos ∧ Interrupted (.error e : Res Bytes) := by
  unfold readOnce at h
  split at h
  · simp at h
  · exact ⟨(readSched_err h).1, (readSched_err h).2, readSched_error h⟩

theorem awaitSched_ok {n : Nat} {s s' : RState} {rs : List RdResp} {k : Nat} (h : awaitSched n s rs = (.ok k, s')) :
    k ≤ n ∧ (0 < n → 0 < k) ∧ s'.data = s.data ∧ s'.pos = s.pos := by
  induction rs with
  | nil => simp [awaitSched] at h
  | cons r rs ih =>
    cases r with
    | pending => exact ih (by simpa [awaitSched] using h)
    | error c => simp [awaitSched] at h
    | chunk c =>
      simp only [awaitSched, Prod.mk.injEq, Except.ok.injEq] at h
      obtain ⟨rfl, rfl⟩ := h
      exact ⟨by omega, by omega, rfl, rfl⟩

theorem awaitChunk_ok {n : Nat} {s s' : RState} {k : Nat} (h : awaitChunk n s = (.ok k, s')) :
    k ≤ n ∧ (0 < n → 0 < k) ∧ s'.data = s.data ∧ s'.pos = s.pos := by
  unfold awaitChunk at h
  split at h
  · simp only [Prod.mk.injEq, Except.ok.injEq] at h
    obtain ⟨rfl, rfl⟩ := h
    exact ⟨Nat.le_refl _, id, rfl, rfl⟩
  · exact awaitSched_ok h

theorem awaitSched_err {n : Nat} {s s' : RState} {rs : List RdResp} {e : Fail} (h : awaitSched n s rs = (.error e, s')) :
    s'.data = s.data ∧ s'.pos = s.pos ∧ Interrupted (.error e : Res Bytes) := by
  induction rs with
  | nil =>
    simp only [awaitSched, Prod.mk.injEq, Except.error.injEq] at h
    rw [← h.2]; exact ⟨rfl, rfl, Or.inl (by rw [← h.1])⟩
  | cons r rs ih =>
    cases r with
    | pending => exact ih (by simpa [awaitSched] using h)
    | error c =>
      simp only [awaitSched, Prod.mk.injEq, Except.error.injEq] at h
      rw [← h.2]; exact ⟨rfl, rfl, Or.inr ⟨c, by rw [← h.1]⟩⟩
    | chunk c => simp [awaitSched] at h

theorem awaitChunk_err {n : Nat} {s s' : RState} {e : Fail} (h : awaitChunk n s = (.error e, s')) :
    s'.data = s.data ∧ s'.pos = s.pos ∧ Interrupted (.error e : Res Bytes) := by
  unfold awaitChunk at h
  split at h
  · simp at h
  · exact awaitSched_err h

/-- A successful read: what it delivers comes off the front of what is to come, and an empty delivery into a non-empty
buffer means that nothing more is, and that the source is past the data. -/
theorem read_ok {C : Codec} {er er' : EntryReader} {n : Nat} {s s' : RState} {b : Bytes}
    (h : er.read C n s = (.ok (b, er'), s')) :
    s'.data = s.data ∧ er'.compression = er.compression ∧ er'.hasher = er.hasher.update b ∧ b.length ≤ n ∧
    b ++ (er'.rest C s').out = (er.rest C s).out ∧ (er'.rest C s').ok = (er.rest C s).ok ∧
    s'.pos + (er'.rest C s').used = s.pos + (er.rest C s).used ∧
    (0 < n → b = [] → (er.rest C s).out = [] ∧ (er.rest C s).ok = true ∧ s'.pos = s.pos + (er.rest C s).used) := by
  unfold EntryReader.read at h
  split at h
  · rename_i hc
    split at h
    · rename_i hl
      simp only [Prod.mk.injEq, Except.ok.injEq] at h
      obtain ⟨⟨rfl, rfl⟩, rfl⟩ := h
      refine ⟨rfl, rfl, rfl, Nat.zero_le _, rfl, rfl, rfl, fun _ _ => ?_⟩
      simp [EntryReader.rest, hc, hl, window]
    · rename_i hl
      split at h
      · rename_i hr
        simp only [Prod.mk.injEq, Except.ok.injEq] at h
        obtain ⟨⟨rfl, rfl⟩, rfl⟩ := h
        obtain ⟨k, hk, hk0, hb, hd, hp⟩ := readOnce_ok hr
        rename_i b s'
        have hbl : b.length = min k (s.data.length - s.pos) := by rw [hb]; simp
        have hw : b ++ window s'.data s'.pos (er.limit - b.length) = window s.data s.pos er.limit := by
          unfold window
          rw [hd, hp]
          have : (s.data.drop (s.pos + b.length)) = (s.data.drop s.pos).drop b.length := by
            rw [List.drop_drop]
          rw [this]
          have hb' : b = (s.data.drop s.pos).take b.length := by
            rw [hbl, ← List.length_drop]
            conv => lhs; rw [hb]
            rw [Nat.min_comm, ← List.take_take]
            exact (List.take_of_length_le (by rw [List.length_take]; omega)).symm
          conv => lhs; rw [hb']
          rw [show er.limit = b.length + (er.limit - b.length) by omega, List.take_add]
          simp [hbl]
        refine ⟨hd, rfl, rfl, by omega, ?_, ?_, ?_, fun hn hbe => ?_⟩
        · simp only [EntryReader.rest, hc, if_true]
          exact hw
        · simp [EntryReader.rest, hc]
        · simp only [EntryReader.rest, hc, if_true]
          rw [← hw, List.length_append, hp]
          omega
        · subst hbe
          have hk0 := hk0 (by omega)
          have : s.data.length - s.pos = 0 := by simp only [List.length_nil] at hbl; omega
          have hw0 : window s.data s.pos er.limit = [] := by
            apply List.length_eq_zero_iff.1
            simp [window]; omega
          simp only [EntryReader.rest, hc, if_true, hw0, hp, true_and]
      · simp at h
  · rename_i hc
    split at h
    · simp only [Prod.mk.injEq, Except.ok.injEq] at h
      obtain ⟨⟨rfl, rfl⟩, rfl⟩ := h
      exact ⟨rfl, rfl, rfl, Nat.zero_le _, rfl, rfl, rfl, fun h => by omega⟩
    · rename_i hn
      split at h
      · simp at h
      · rename_i k s1 ha
        obtain ⟨hk, hk0, hd, hp⟩ := awaitChunk_ok ha
        have hk0 := hk0 (by omega)
        unfold EntryReader.deliver at h
        split at h
        · rename_i ho
          split at h
          · rename_i hok
            simp only [Prod.mk.injEq, Except.ok.injEq] at h
            obtain ⟨⟨rfl, rfl⟩, rfl⟩ := h
            have ho' := List.length_eq_zero_iff.1 ho
            refine ⟨hd, rfl, rfl, Nat.zero_le _, ?_, ?_, ?_, fun _ _ => ⟨?_, ?_, ?_⟩⟩ <;>
              simp [EntryReader.rest, hc, EntryReader.run, RState.advance, hp] <;>
              simpa [EntryReader.run] using (by assumption)
          · simp at h
        · rename_i ho
          simp only [Prod.mk.injEq, Except.ok.injEq] at h
          obtain ⟨⟨rfl, rfl⟩, rfl⟩ := h
          refine ⟨hd, rfl, rfl, by simp; omega, ?_, ?_, ?_, fun _ hb => ?_⟩
          · simp only [EntryReader.rest, hc, if_false]
            exact List.take_append_drop _ _
          · simp only [EntryReader.rest, hc, if_false]
            rfl
          · simp only [EntryReader.rest, hc, if_false, hp]
            rfl
          · exfalso
            have := congrArg List.length hb
            simp at this
            rcases this with h | h
            · omega
            · rw [h] at ho; exact ho rfl

/-- A failed read changes nothing the caller could notice, and is an interruption or the decoder's verdict after
everything it could produce. -/
theorem read_err {C : Codec} {er : EntryReader} {n : Nat} {s s' : RState} {e : Fail}
    (h : er.read C n s = (.error e, s')) :
    s'.data = s.data ∧ s'.pos = s.pos ∧ (Interrupted (.error e : Res Bytes) ∨
      (e = .err (.upstreamReadError .invalidData) ∧ (er.rest C s).out = [] ∧ (er.rest C s).ok = false)) := by
  unfold EntryReader.read at h
  split at h
  · split at h
    · simp at h
    · split at h
      · simp at h
      · rename_i hr
        simp only [Prod.mk.injEq, Except.error.injEq] at h
        obtain ⟨rfl, rfl⟩ := h
        have := readOnce_err hr
        exact ⟨this.1, this.2.1, Or.inl this.2.2⟩
  · rename_i hc
    split at h
    · simp at h
    · split at h
      · rename_i ha
        simp only [Prod.mk.injEq, Except.error.injEq] at h
        obtain ⟨rfl, rfl⟩ := h
        have := awaitChunk_err ha
        exact ⟨this.1, this.2.1, Or.inl this.2.2⟩
      · rename_i ha
        have := awaitChunk_ok ha
        unfold EntryReader.deliver at h
        split at h
        · rename_i ho
          split at h
          · simp at h
          · rename_i hok
            simp only [Prod.mk.injEq, Except.error.injEq] at h
            obtain ⟨rfl, rfl⟩ := h
            refine ⟨this.2.2.1, this.2.2.2, Or.inr ⟨rfl, ?_, ?_⟩⟩
            · simp only [EntryReader.rest, hc, if_false]
              exact List.length_eq_zero_iff.1 ho
            · simp only [EntryReader.rest, hc, if_false]
              simpa using hok
        · simp at h

/-! ## Any use -/

theorem use_spec {C : Codec} {er er' : EntryReader} {s s' : RState} {t : List Got} (h : Use C er s t er' s') :
    s'.data = s.data ∧ er'.compression = er.compression ∧
    delivered t ++ (er'.rest C s').out = (er.rest C s).out ∧ (er'.rest C s').ok = (er.rest C s).ok ∧
    s'.pos + (er'.rest C s').used = s.pos + (er.rest C s).used := by
  induction h with
  | refl => exact ⟨rfl, rfl, rfl, rfl, rfl⟩
  | read h _ ih =>
    obtain ⟨h1, h2, _, _, h3, h4, h5, _⟩ := read_ok h
    obtain ⟨i1, i2, i3, i4, i5⟩ := ih
    exact ⟨i1.trans h1, i2.trans h2, by rw [delivered, List.append_assoc, i3, h3], i4.trans h4, i5.trans h5⟩
  | failed h _ ih =>
    obtain ⟨h1, h2, _⟩ := read_err h
    rw [rest_congr h1 h2, h1, h2] at ih
    exact ih
  | hash _ ih => rw [rest_computeHash] at ih; exact ih
  | resched sc _ ih =>
    rw [rest_congr (s := _) rfl rfl] at ih
    exact ih

theorem use_hasher {C : Codec} {er er' : EntryReader} {s s' : RState} {t : List Got} (h : Use C er s t er' s') :
    ∀ acc, er.hasher = Hasher.new.update acc → er'.hasher = Hasher.new.update (sinceHash acc t) := by
  induction h with
  | refl => intro acc h; exact h
  | read h _ ih =>
    intro acc ha
    refine ih _ ?_
    rw [(read_ok h).2.2.1, ha, Hasher.update_append]
  | failed h _ ih => exact ih
  | hash _ ih => intro acc _; exact ih [] rfl
  | resched sc _ ih => exact ih

theorem Use.append {C : Codec} {er er1 er2 : EntryReader} {s s1 s2 : RState} {t u : List Got} (h : Use C er s t er1 s1)
    (h' : Use C er1 s1 u er2 s2) : Use C er s (t ++ u) er2 s2 := by
  induction h with
  | refl => exact h'
  | read h _ ih => exact .read h (ih h')
  | failed h _ ih => exact .failed h (ih h')
  | hash _ ih => exact .hash (ih h')
  | resched sc _ ih => exact .resched sc (ih h')

/-- Cutting a use after the calls that gave `t`. -/
theorem Use.split {C : Codec} {er er2 : EntryReader} {s s2 : RState} {t u : List Got} (h : Use C er s (t ++ u) er2 s2) :
    ∃ er1 s1, Use C er s t er1 s1 ∧ Use C er1 s1 u er2 s2 := by
  generalize hx : t ++ u = x at h
  induction h generalizing t with
  | refl er s =>
    obtain ⟨rfl, rfl⟩ := List.append_eq_nil_iff.1 hx
    exact ⟨_, _, .refl _ _, .refl _ _⟩
  | read h rest ih =>
    cases t with
    | nil => cases hx; exact ⟨_, _, .refl _ _, .read h rest⟩
    | cons a t =>
      simp only [List.cons_append, List.cons.injEq] at hx
      obtain ⟨rfl, rfl⟩ := hx
      obtain ⟨e1, s1, h1, h2⟩ := ih rfl
      exact ⟨e1, s1, .read h h1, h2⟩
  | failed h rest ih =>
    obtain ⟨e1, s1, h1, h2⟩ := ih hx
    exact ⟨e1, s1, .failed h h1, h2⟩
  | hash rest ih =>
    cases t with
    | nil => cases hx; exact ⟨_, _, .refl _ _, .hash rest⟩
    | cons a t =>
      simp only [List.cons_append, List.cons.injEq] at hx
      obtain ⟨rfl, rfl⟩ := hx
      obtain ⟨e1, s1, h1, h2⟩ := ih rfl
      exact ⟨e1, s1, .hash h1, h2⟩
  | resched sc rest ih =>
    obtain ⟨e1, s1, h1, h2⟩ := ih hx
    exact ⟨e1, s1, .resched sc h1, h2⟩

/-- The first successful call of a use. -/
theorem Use.head_read {C : Codec} {er er2 : EntryReader} {s s2 : RState} {n : Nat} {b : Bytes} {t : List Got}
    (h : Use C er s (.read n b :: t) er2 s2) :
    ∃ s0 er1 s1, s0.data = s.data ∧ s0.pos = s.pos ∧ er.read C n s0 = (.ok (b, er1), s1) ∧ Use C er1 s1 t er2 s2 := by
  generalize hx : Got.read n b :: t = x at h
  induction h with
  | refl => cases hx
  | read h rest => cases hx; exact ⟨_, _, _, rfl, rfl, h, rest⟩
  | failed h _ ih =>
    obtain ⟨s0, e1, s1, h1, h2, h3⟩ := ih hx
    obtain ⟨g1, g2, _⟩ := read_err h
    exact ⟨s0, e1, s1, h1.trans g1, h2.trans g2, h3⟩
  | hash _ _ => cases hx
  | resched sc _ ih =>
    obtain ⟨s0, e1, s1, h1, h2, h3⟩ := ih hx
    exact ⟨s0, e1, s1, h1, h2, h3⟩

theorem Use.head_hash {C : Codec} {er er2 : EntryReader} {s s2 : RState} {h : UInt32} {t : List Got}
    (hu : Use C er s (.hash h :: t) er2 s2) : h = er.hasher.finalize := by
  generalize hx : Got.hash h :: t = x at hu
  induction hu with
  | refl => cases hx
  | read h rest => cases hx
  | failed h _ ih => exact ih hx
  | hash _ _ => cases hx; rfl
  | resched sc _ ih => exact ih hx

theorem delivered_append (t u : List Got) : delivered (t ++ u) = delivered t ++ delivered u := by
  induction t with
  | nil => rfl
  | cons a t ih => cases a <;> simp [delivered, ih]

/-- No checksum query. -/
def NoHash (t : List Got) : Prop := ∀ h, Got.hash h ∉ t

theorem sinceHash_noHash {t : List Got} (h : NoHash t) (acc : Bytes) : sinceHash acc t = acc ++ delivered t := by
  induction t generalizing acc with
  | nil => simp [sinceHash, delivered]
  | cons a t ih =>
    have ht : NoHash t := fun x hx => h x (List.mem_cons_of_mem _ hx)
    cases a with
    | read n b => rw [sinceHash, ih ht, delivered, List.append_assoc]
    | hash x => exact absurd List.mem_cons_self (h x)

theorem sinceHash_append (acc : Bytes) (t u : List Got) : sinceHash acc (t ++ u) = sinceHash (sinceHash acc t) u := by
  induction t generalizing acc with
  | nil => rfl
  | cons a t ih => cases a <;> simp [sinceHash, ih]

/-! ## Reading to the end -/

theorem readLoop_step {C : Codec} {chunk : Nat} {er er' : EntryReader} {acc b : Bytes} {s s' : RState}
    (h : er.read C chunk s = (.ok (b, er'), s')) (hb : b ≠ []) :
    er.readLoop C chunk acc s = er'.readLoop C chunk (acc ++ b) s' := by
  rw [EntryReader.readLoop.eq_def]
  split
  · rename_i hx; rw [h] at hx; cases hx; rw [dif_neg hb]
  · rename_i hx; rw [h] at hx; cases hx

theorem readLoop_stop {C : Codec} {chunk : Nat} {er er' : EntryReader} {acc : Bytes} {s s' : RState}
    (h : er.read C chunk s = (.ok ([], er'), s')) : er.readLoop C chunk acc s = (.ok (acc, er'), s') := by
  rw [EntryReader.readLoop.eq_def]
  split
  · rename_i hx; rw [h] at hx; cases hx; rw [dif_pos rfl]
  · rename_i hx; rw [h] at hx; cases hx

/-- The read loop is a use of the reader that ends with an empty read, or with a failed one. -/
theorem readLoop_use {C : Codec} {chunk : Nat} : ∀ (m : Nat) (er : EntryReader) (acc : Bytes) (s : RState),
    er.remaining C s = m → ∀ r s', er.readLoop C chunk acc s = (r, s') →
    match r with
    | .ok (b, er') => ∃ t er1 s1, Use C er s t er1 s1 ∧ NoHash t ∧ b = acc ++ delivered t ∧
        er1.read C chunk s1 = (.ok ([], er'), s')
    | .error e => ∃ t er1 s1, Use C er s t er1 s1 ∧ NoHash t ∧ er1.read C chunk s1 = (.error e, s') := by
  intro m
  induction m using Nat.strongRecOn with
  | ind m ih =>
    intro er acc s hm r s' h
    unfold EntryReader.readLoop at h
    split at h
    · rename_i b er1 s1 hr
      split at h
      · rename_i hb
        subst hb
        simp only [Prod.mk.injEq] at h
        obtain ⟨rfl, rfl⟩ := h
        exact ⟨[], er, s, .refl _ _, fun _ h => by simp at h, by simp [delivered], hr⟩
      · rename_i hb
        have hlt := EntryReader.read_remaining_lt hr hb
        have := ih _ (by omega) er1 (acc ++ b) s1 rfl r s' h
        have nh : ∀ t, NoHash t → NoHash (.read chunk b :: t) := by
          intro t ht x hx
          rcases List.mem_cons.1 hx with hx | hx
          · cases hx
          · exact ht x hx
        split at this
        · obtain ⟨t, er2, s2, hu, hn, hbb, hl⟩ := this
          exact ⟨_, _, _, .read hr hu, nh _ hn, by rw [hbb, delivered, List.append_assoc], hl⟩
        · obtain ⟨t, er2, s2, hu, hn, hl⟩ := this
          exact ⟨_, _, _, .read hr hu, nh _ hn, hl⟩
    · rename_i e s1 hr
      simp only [Prod.mk.injEq] at h
      obtain ⟨rfl, rfl⟩ := h
      exact ⟨[], er, s, .refl _ _, fun _ h => by simp at h, hr⟩

/-- Reading to the end delivers all that was to come and leaves the source after the data. -/
theorem readToEnd_ok {C : Codec} {chunk : Nat} (hc : 0 < chunk) {er er' : EntryReader} {s s' : RState} {b : Bytes}
    (h : er.readToEnd C chunk s = (.ok (b, er'), s')) :
    b = (er.rest C s).out ∧ (er.rest C s).ok = true ∧ s'.pos = s.pos + (er.rest C s).used ∧ s'.data = s.data ∧
      er'.hasher = er.hasher.update b := by
  obtain ⟨t, er1, s1, hu, hn, hb, hl⟩ := readLoop_use _ er [] s rfl _ _ h
  obtain ⟨u1, u2, u3, u4, u5⟩ := use_spec hu
  obtain ⟨r1, r2, r3, _, r4, r5, r6, r7⟩ := read_ok hl
  obtain ⟨r8, r9, r10⟩ := r7 hc rfl
  rw [List.nil_append] at hb
  have hout : b = (er.rest C s).out := by rw [hb, ← u3, r8, List.append_nil]
  refine ⟨hout, u4 ▸ r9, by rw [r10, u5], r1.trans u1, ?_⟩
  rw [r3]
  have hh : ∀ {er er1 : EntryReader} {s s1 : RState} {t : List Got}, Use C er s t er1 s1 → NoHash t →
      er1.hasher = er.hasher.update (delivered t) := by
    intro er er1 s s1 t hu
    induction hu with
    | refl => intro _; rfl
    | read h _ ih =>
      intro hn
      rw [ih fun x hx => hn x (List.mem_cons_of_mem _ hx), (read_ok h).2.2.1, Hasher.update_append]
      rfl
    | failed h _ ih => exact ih
    | hash _ _ => intro hn; exact absurd List.mem_cons_self (hn _)
    | resched sc _ ih => exact ih
  rw [hh hu hn, ← hb]
  rfl

/-- Reading to the end fails only by interruption or because the decoder rejects the data. -/
theorem readToEnd_err {C : Codec} {chunk : Nat} {er : EntryReader} {s s' : RState} {e : Fail}
    (h : er.readToEnd C chunk s = (.error e, s')) :
    s'.data = s.data ∧ (Interrupted (.error e : Res Bytes) ∨
      (e = .err (.upstreamReadError .invalidData) ∧ (er.rest C s).ok = false)) := by
  obtain ⟨t, er1, s1, hu, hn, hl⟩ := readLoop_use _ er [] s rfl _ _ h
  obtain ⟨u1, u2, u3, u4, u5⟩ := use_spec hu
  obtain ⟨r1, r2, r3⟩ := read_err hl
  refine ⟨r1.trans u1, r3.imp id fun ⟨h1, h2, h3⟩ => ⟨h1, u4 ▸ h3⟩⟩

/-! ## A `read_to_end` that fails -/

theorem readPart_step {C : Codec} {chunk : Nat} {er er' : EntryReader} {acc b : Bytes} {s s' : RState}
    (h : er.read C chunk s = (.ok (b, er'), s')) (hb : b ≠ []) :
    er.readPart C chunk acc s = er'.readPart C chunk (acc ++ b) s' := by
  rw [EntryReader.readPart]
  split
  · rename_i h1
    rw [h] at h1
    cases h1
    rw [dif_neg hb]
  · rename_i h1
    rw [h] at h1
    cases h1

theorem readPart_stop {C : Codec} {chunk : Nat} {er er' : EntryReader} {acc : Bytes} {s s' : RState}
    (h : er.read C chunk s = (.ok ([], er'), s')) : er.readPart C chunk acc s = (acc, er') := by
  rw [EntryReader.readPart]
  split
  · rename_i h1
    rw [h] at h1
    cases h1
    rfl
  · rename_i h1
    rw [h] at h1
    cases h1

theorem readPart_failed {C : Codec} {chunk : Nat} {er : EntryReader} {acc : Bytes} {s s' : RState} {e : Fail}
    (h : er.read C chunk s = (.error e, s')) : er.readPart C chunk acc s = (acc, er) := by
  rw [EntryReader.readPart]
  split
  · rename_i h1
    rw [h] at h1
    cases h1
  · rfl

theorem readLoop_failed {C : Codec} {chunk : Nat} {er : EntryReader} {acc : Bytes} {s s' : RState} {e : Fail}
    (h : er.read C chunk s = (.error e, s')) : er.readLoop C chunk acc s = (.error e, s') := by
  rw [EntryReader.readLoop]
  split
  · rename_i h1
    rw [h] at h1
    cases h1
  · rename_i h1
    rw [h] at h1
    cases h1
    rfl

/-- A `read_to_end` that fails is a use of the reader, too: the caller has what it read, and the reader where it was
before the read that failed. -/
theorem readPart_use {C : Codec} {chunk : Nat} : ∀ (m : Nat) (er : EntryReader) (acc : Bytes) (s : RState),
    er.remaining C s = m → ∀ e s', er.readLoop C chunk acc s = (.error e, s') →
    ∃ t s1, Use C er s t (er.readPart C chunk acc s).2 s1 ∧ NoHash t ∧ (er.readPart C chunk acc s).1 = acc ++ delivered t ∧
      (er.readPart C chunk acc s).2.read C chunk s1 = (.error e, s') := by
  intro m
  induction m using Nat.strongRecOn with
  | ind m ih =>
    intro er acc s hm e s' h
    cases hr : er.read C chunk s with
    | mk r s1 =>
    cases r with
    | error e1 =>
      rw [readLoop_failed hr] at h
      cases h
      rw [readPart_failed hr]
      exact ⟨[], s, .refl _ _, fun _ h => by simp at h, by simp [delivered], hr⟩
    | ok p =>
      obtain ⟨b, er1⟩ := p
      by_cases hb : b = []
      · subst hb
        rw [readLoop_stop hr] at h
        cases h
      · rw [readLoop_step hr hb] at h
        rw [readPart_step hr hb]
        obtain ⟨t, s2, hu, hn, h1, h2⟩ := ih _ (by rw [← hm]; exact EntryReader.read_remaining_lt hr hb) er1 _ s1 rfl e s' h
        refine ⟨.read chunk b :: t, s2, .read hr hu, ?_, by rw [h1, delivered, List.append_assoc], h2⟩
        intro x hx
        rcases List.mem_cons.1 hx with hx | hx
        · cases hx
        · exact hn x hx

end AsyncZip
