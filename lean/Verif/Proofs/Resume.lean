import Verif.Spec.Resume
import Verif.Proofs.Sessions

/-! Carrying on with an entry reader after calls on it have failed. -/

namespace AsyncZip
open Spec Rd

theorem handed_append (a b : List Seen) : handed (a ++ b) = handed a ++ handed b := by
  induction a with
  | nil => rfl
  | cons x a ih => cases x <;> simp [handed, ih]

/-- A call on an entry reader is a use of it that delivers what the caller is handed. -/
theorem callReader_use {C : Codec} {er : EntryReader} {c : Call} (hc : opens c = false) (s : RState) :
    ∃ t er', (callReader C er c s).2.1 = some er' ∧ Use C er s t er' (callReader C er c s).2.2 ∧
      delivered t = handed [(callReader C er c s).1] ∧ (c ≠ .computeHash → NoHash t) := by
  cases c with
  | «open» i => cases hc
  | computeHash =>
    exact ⟨_, _, rfl, .hash (.refl _ _), rfl, fun h => absurd rfl h⟩
  | read n =>
    unfold callReader
    simp only []
    cases hr : er.read C n s with
    | mk r s' =>
    cases r with
    | ok p =>
      exact ⟨_, _, rfl, .read hr (.refl _ _), rfl, fun _ x hx => by simp at hx⟩
    | error e => exact ⟨_, _, rfl, .failed hr (.refl _ _), rfl, fun _ x hx => by simp at hx⟩
  | readToEnd n =>
    unfold callReader
    simp only []
    cases hr : er.readToEnd C n s with
    | mk r s' =>
    cases r with
    | ok p =>
      obtain ⟨b, er'⟩ := p
      obtain ⟨t, er1, s1, hu, hn, hb, hl⟩ := readLoop_use _ er [] s rfl _ _ hr
      refine ⟨t ++ [.read n []], er', rfl, Use.append hu (.read hl (.refl _ _)), ?_, fun _ x hx => ?_⟩
      · rw [delivered_append]
        simp [delivered, handed, hb]
      · rcases List.mem_append.1 hx with hx | hx
        · exact hn x hx
        · simp at hx
    | error e =>
      obtain ⟨t, s1, hu, hn, hb, hl⟩ := readPart_use _ er [] s rfl _ _ hr
      refine ⟨t, _, rfl, ?_, ?_, fun _ => hn⟩
      · have := Use.append hu (.failed hl (.refl _ _))
        rwa [List.append_nil] at this
      · simp [handed, hb]

/-- So is any sequence of calls on it. -/
theorem session_use {C : Codec} {f : ZipFile} (calls : List Call) (hc : ∀ c ∈ calls, opens c = false) (er : EntryReader)
    (s : RState) :
    ∃ t er' s', (seekSession C f calls (some er, s)).2 = (some er', s') ∧ Use C er s t er' s' ∧
      delivered t = handed (seekSession C f calls (some er, s)).1 ∧ (.computeHash ∉ calls → NoHash t) := by
  induction calls generalizing er s with
  | nil => exact ⟨[], er, s, rfl, .refl _ _, rfl, fun _ x hx => by simp at hx⟩
  | cons c cs ih =>
    obtain ⟨t, er1, h1, h2, h3, h4⟩ := callReader_use (C := C) (er := er) (hc c List.mem_cons_self) s
    have e : seekCall C f c (some er, s) = callReader C er c s := by
      cases c with
      | «open» i => exact absurd (hc _ List.mem_cons_self) (by simp [opens])
      | _ => rfl
    have e1 : seekSession C f (c :: cs) (some er, s) = ((callReader C er c s).1 ::
        (seekSession C f cs (some er1, (callReader C er c s).2.2)).1,
        (seekSession C f cs (some er1, (callReader C er c s).2.2)).2) := by
      simp only [seekSession, e]
      rw [← h1]
    rw [e1]
    obtain ⟨u, er2, s2, i1, i2, i3, i4⟩ := ih (fun x hx => hc x (List.mem_cons_of_mem _ hx)) er1 (callReader C er c s).2.2
    refine ⟨t ++ u, er2, s2, i1, Use.append h2 i2, ?_, fun hn x hx => ?_⟩
    · rw [delivered_append, h3, i3, ← handed_append]
      rfl
    · rw [List.mem_cons, not_or] at hn
      rcases List.mem_append.1 hx with hx | hx
      · exact h4 (fun h => hn.1 h.symm) x hx
      · exact i4 hn.2 x hx

/-! ## Retrying -/

/-- What a poll of the source uses up of its schedule. -/
def Spent {α : Type} (rs : List RdResp) (r : Res α) (s' : RState) : Prop :=
  ∃ rs', s'.sched = some rs' ∧
    match r with
    | .ok _ => answers rs = answers rs' + 1 ∧ faults rs' = faults rs
    | .error _ => answers rs = 0 ∨ (answers rs' = answers rs ∧ faults rs = faults rs' + 1)

theorem readSched_spent (n : Nat) (s : RState) : ∀ rs, Spent rs (readSched n s rs).1 (readSched n s rs).2
  | [] => ⟨[], rfl, Or.inl rfl⟩
  | .pending :: rs => readSched_spent n s rs
  | .error _ :: rs => ⟨rs, rfl, Or.inr ⟨rfl, rfl⟩⟩
  | .chunk _ :: rs => ⟨rs, rfl, rfl, rfl⟩

theorem awaitSched_spent (n : Nat) (s : RState) : ∀ rs, Spent rs (awaitSched n s rs).1 (awaitSched n s rs).2
  | [] => ⟨[], rfl, Or.inl rfl⟩
  | .pending :: rs => awaitSched_spent n s rs
  | .error _ :: rs => ⟨rs, rfl, Or.inr ⟨rfl, rfl⟩⟩
  | .chunk _ :: rs => ⟨rs, rfl, rfl, rfl⟩

/-- A read of a reader with good data to come uses one answer if it succeeds and one fault if it fails. -/
theorem read_spent {C : Codec} {er : EntryReader} {n : Nat} {s : RState} {rs : List RdResp} (hs : s.sched = some rs)
    (hok : (er.rest C s).ok = true) :
    (∃ er', er.read C n s = (.ok ([], er'), s)) ∨ Spent rs (er.read C n s).1 (er.read C n s).2 := by
  unfold EntryReader.rest at hok
  unfold EntryReader.read
  by_cases hc : er.compression = .stored
  · simp only [if_pos hc] at *
    by_cases hl : er.limit = 0
    · exact Or.inl ⟨er, by rw [if_pos hl]⟩
    · right
      rw [if_neg hl]
      have := readSched_spent (min n er.limit) s rs
      unfold readOnce
      rw [hs]
      simp only []
      generalize readSched (min n er.limit) s rs = x at *
      obtain ⟨r, s'⟩ := x
      cases r <;> exact this
  · simp only [if_neg hc] at *
    by_cases hl : n = 0
    · exact Or.inl ⟨er, by rw [if_pos hl]⟩
    · right
      rw [if_neg hl]
      have := awaitSched_spent n s rs
      unfold awaitChunk
      rw [hs]
      simp only []
      generalize awaitSched n s rs = x at *
      obtain ⟨r, s'⟩ := x
      cases r with
      | error e => exact this
      | ok k =>
        simp only []
        unfold EntryReader.deliver
        rw [hok]
        split
        · exact this
        · exact this

/-- One attempt to read to the end: it succeeds, or it has met one of the source's faults and the source still has the
answers it takes to read the rest. -/
theorem attempt {C : Codec} {chunk : Nat} (er : EntryReader) (acc : Bytes) (s : RState) (rs : List RdResp)
    (hs : s.sched = some rs) (hok : (er.rest C s).ok = true) (ha : (er.rest C s).out.length < answers rs) :
    (∃ b er' s', er.readLoop C chunk acc s = (.ok (b, er'), s')) ∨
    ∃ e s' rs', er.readLoop C chunk acc s = (.error e, s') ∧ s'.sched = some rs' ∧ faults rs' < faults rs ∧
      ((er.readPart C chunk acc s).2.rest C s').ok = true ∧
      ((er.readPart C chunk acc s).2.rest C s').out.length < answers rs' := by
  induction hm : er.remaining C s using Nat.strongRecOn generalizing er acc s rs with
  | _ m ih =>
  have hsp := read_spent (n := chunk) hs hok
  cases hr : er.read C chunk s with
  | mk r s1 =>
  rw [hr] at hsp
  cases r with
  | error e =>
    right
    rcases hsp with ⟨er', h⟩ | ⟨rs', h1, h2⟩
    · cases h
    · obtain ⟨d1, p1, -⟩ := read_err hr
      simp only [] at h2
      rcases h2 with h2 | ⟨h2, h3⟩
      · omega
      · refine ⟨e, s1, rs', readLoop_failed hr, h1, by omega, ?_⟩
        rw [readPart_failed hr, rest_congr d1 p1]
        exact ⟨hok, by rw [h2]; exact ha⟩
  | ok p =>
    obtain ⟨b, er1⟩ := p
    by_cases hb : b = []
    · subst hb
      exact Or.inl ⟨_, _, _, readLoop_stop hr⟩
    · rw [readLoop_step hr hb, readPart_step hr hb]
      rcases hsp with ⟨er', h⟩ | ⟨rs', h1, h2, h3⟩
      · simp only [Prod.mk.injEq, Except.ok.injEq] at h
        exact absurd h.1.1 hb
      · obtain ⟨-, -, -, -, r4, r5, -, -⟩ := read_ok hr
        have hlen := congrArg List.length r4
        rw [List.length_append] at hlen
        have := List.length_pos_iff.2 hb
        have := ih _ (by rw [← hm]; exact EntryReader.read_remaining_lt hr hb) er1 (acc ++ b) s1 rs' h1 (r5.trans hok)
          (by omega) rfl
        rw [h3] at this
        exact this

end AsyncZip
