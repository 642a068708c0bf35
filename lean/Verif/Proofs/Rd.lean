import Verif.Model.Rd
/-!
# The reader monad: inversion, exact effects of reads, independence of the schedule
-/

namespace AsyncZip
namespace Rd

theorem bind_def {α β : Type} (m : Rd α) (f : α → Rd β) (s : RState) :
    (m >>= f) s = match m s with | (.ok a, s') => f a s' | (.error e, s') => (.error e, s') := rfl

@[simp] theorem pure_def {α : Type} (a : α) (s : RState) : (pure a : Rd α) s = (.ok a, s) := rfl
@[simp] theorem fail_def {α : Type} (e : Fail) (s : RState) : (fail e : Rd α) s = (.error e, s) := rfl
@[simp] theorem throwErr_def {α : Type} (e : ZipError) (s : RState) : (throwErr e : Rd α) s = (.error (.err e), s) := rfl
@[simp] theorem lift_def {α : Type} (r : Res α) (s : RState) : lift r s = (r, s) := rfl

theorem bind_of_ok {α β : Type} {m : Rd α} {f : α → Rd β} {s s1 : RState} {a : α} (h : m s = (.ok a, s1)) :
    (m >>= f) s = f a s1 := by rw [bind_def, h]

theorem bind_of_error {α β : Type} {m : Rd α} {f : α → Rd β} {s s1 : RState} {e : Fail} (h : m s = (.error e, s1)) :
    (m >>= f) s = (.error e, s1) := by rw [bind_def, h]

theorem bind_ok_iff {α β : Type} {m : Rd α} {f : α → Rd β} {s s' : RState} {b : β} :
    (m >>= f) s = (.ok b, s') ↔ ∃ a s1, m s = (.ok a, s1) ∧ f a s1 = (.ok b, s') := by
  rw [bind_def]
  constructor
  · intro h
    split at h
    · exact ⟨_, _, by assumption, h⟩
    · cases h
  · rintro ⟨a, s1, h1, h2⟩
    rw [h1]
    exact h2

theorem bind_error_iff {α β : Type} {m : Rd α} {f : α → Rd β} {s s' : RState} {e : Fail} :
    (m >>= f) s = (.error e, s') ↔
      m s = (.error e, s') ∨ ∃ a s1, m s = (.ok a, s1) ∧ f a s1 = (.error e, s') := by
  rw [bind_def]
  constructor
  · intro h
    split at h
    · exact Or.inr ⟨_, _, by assumption, h⟩
    · rename_i e' s1 hm
      simp only [Prod.mk.injEq, Except.error.injEq] at h
      rw [← h.1, ← h.2]
      exact Or.inl hm
  · rintro (h | ⟨a, s1, h1, h2⟩)
    · rw [h]
    · rw [h1]
      exact h2

/-! ## Postconditions -/

/-- Every normal result of `m` satisfies `P`. -/
def Ensures {α : Type} (m : Rd α) (P : α → Prop) : Prop := ∀ s a s', m s = (.ok a, s') → P a

theorem Ensures.bind {α β : Type} {m : Rd α} {f : α → Rd β} {Q : α → Prop} {P : β → Prop}
    (hm : Ensures m Q) (hf : ∀ a, Q a → Ensures (f a) P) : Ensures (m >>= f) P := by
  intro s b s' h
  obtain ⟨a, s1, h1, h2⟩ := bind_ok_iff.1 h
  exact hf a (hm s a s1 h1) s1 b s' h2

theorem Ensures.bind' {α β : Type} {m : Rd α} {f : α → Rd β} {P : β → Prop}
    (hf : ∀ a, Ensures (f a) P) : Ensures (m >>= f) P :=
  Ensures.bind (Q := fun _ => True) (fun _ _ _ _ => trivial) (fun a _ => hf a)

theorem Ensures.pure {α : Type} {a : α} {P : α → Prop} (h : P a) : Ensures (pure a : Rd α) P := by
  intro s x s' hx
  simp only [pure_def, Prod.mk.injEq, Except.ok.injEq] at hx
  rw [← hx.1]
  exact h

theorem Ensures.fail {α : Type} {e : Fail} {P : α → Prop} : Ensures (fail e : Rd α) P := by
  intro s x s' hx
  simp at hx

/-! ## What reads return -/

theorem readSched_ok {n : Nat} {s s' : RState} {rs : List RdResp} {b : Bytes} (h : readSched n s rs = (.ok b, s')) :
    ∃ k, k ≤ n ∧ (n ≠ 0 → k ≠ 0) ∧ b = (s.data.drop s.pos).take k ∧ s'.data = s.data ∧ s'.pos = s.pos + b.length ∧
      s'.sched.isSome := by
  induction rs with
  | nil => simp [readSched] at h
  | cons r rs ih =>
    cases r with
    | pending => exact ih (by simpa [readSched] using h)
    | error c => simp [readSched] at h
    | chunk c =>
      simp only [readSched, Prod.mk.injEq, Except.ok.injEq] at h
      obtain ⟨rfl, rfl⟩ := h
      exact ⟨min n (c + 1), by omega, by omega, rfl, rfl, rfl, rfl⟩

theorem readOnce_ok {n : Nat} {s s' : RState} {b : Bytes} (h : readOnce n s = (.ok b, s')) :
    ∃ k, k ≤ n ∧ (n ≠ 0 → k ≠ 0) ∧ b = (s.data.drop s.pos).take k ∧ s'.data = s.data ∧ s'.pos = s.pos + b.length := by
  unfold readOnce at h
  split at h
  · simp only [Prod.mk.injEq, Except.ok.injEq] at h
    obtain ⟨rfl, rfl⟩ := h
    exact ⟨n, Nat.le_refl _, fun h => h, rfl, rfl, rfl⟩
  · obtain ⟨k, h1, h2, h3, h4, h5, -⟩ := readSched_ok h
    exact ⟨k, h1, h2, h3, h4, h5⟩

/-- `read_exact` returns exactly the next `n` bytes. -/
theorem readExactLoop_ok (need : Nat) : ∀ (acc : Bytes) {s s' : RState} {b : Bytes},
    readExactLoop need acc s = (.ok b, s') →
    b = acc ++ (s.data.drop s.pos).take need ∧ need ≤ (s.data.drop s.pos).length ∧ s'.data = s.data ∧
      s'.pos = s.pos + need := by
  induction need using Nat.strongRecOn with
  | ind need ih =>
    intro acc s s' b h
    unfold readExactLoop at h
    split at h
    · rename_i hz
      simp only [pure_def, Prod.mk.injEq, Except.ok.injEq] at h
      obtain ⟨rfl, rfl⟩ := h
      simp [hz]
    · rename_i hz
      obtain ⟨x, s1, h1, h2⟩ := bind_ok_iff.1 h
      obtain ⟨k, k1, k2, k3, k4, k5⟩ := readOnce_ok h1
      split at h2
      · simp at h2
      · rename_i hx
        have hxl : x.length ≤ need := by rw [k3, List.length_take]; omega
        obtain ⟨e1, e2, e3, e4⟩ := ih (need - x.length) (by omega) (acc ++ x) h2
        have hxe : x = (s.data.drop s.pos).take x.length := by
          rw [k3, List.length_take, List.take_eq_take_iff]; omega
        have hdrop : s1.data.drop s1.pos = (s.data.drop s.pos).drop x.length := by rw [k4, k5, List.drop_drop]
        rw [hdrop] at e1 e2
        refine ⟨?_, ?_, by rw [e3, k4], by rw [e4, k5]; omega⟩
        · have hcat : x ++ ((s.data.drop s.pos).drop x.length).take (need - x.length)
              = (s.data.drop s.pos).take need := by
            generalize s.data.drop s.pos = d at hxe
            have : d.take need = d.take x.length ++ (d.drop x.length).take (need - x.length) := by
              rw [← List.take_add]
              congr 1
              omega
            rw [this, ← hxe]
          rw [e1, List.append_assoc, hcat]
        · have : x.length ≤ (s.data.drop s.pos).length := by
            rw [hxe, List.length_take]; omega
          rw [List.length_drop] at e2
          omega

theorem readExact_ok {n : Nat} {s s' : RState} {b : Bytes} (h : readExact n s = (.ok b, s')) :
    b = (s.data.drop s.pos).take n ∧ b.length = n ∧ s'.data = s.data ∧ s'.pos = s.pos + n := by
  obtain ⟨h1, h2, h3, h4⟩ := readExactLoop_ok n [] h
  rw [List.nil_append] at h1
  exact ⟨h1, by rw [h1, List.length_take]; omega, h3, h4⟩

/-- `read_bytes` returns the next `n` bytes, or all that remain. -/
theorem readUpToLoop_ok (need : Nat) : ∀ (acc : Bytes) {s s' : RState} {b : Bytes},
    readUpToLoop need acc s = (.ok b, s') →
    b = acc ++ (s.data.drop s.pos).take need ∧ s'.data = s.data ∧
      s'.pos = s.pos + ((s.data.drop s.pos).take need).length := by
  induction need using Nat.strongRecOn with
  | ind need ih =>
    intro acc s s' b h
    unfold readUpToLoop at h
    split at h
    · rename_i hz
      simp only [pure_def, Prod.mk.injEq, Except.ok.injEq] at h
      obtain ⟨rfl, rfl⟩ := h
      simp [hz]
    · rename_i hz
      obtain ⟨x, s1, h1, h2⟩ := bind_ok_iff.1 h
      obtain ⟨k, k1, k2, k3, k4, k5⟩ := readOnce_ok h1
      have hxe : x = (s.data.drop s.pos).take x.length := by
        rw [k3, List.length_take, List.take_eq_take_iff]; omega
      split at h2
      · rename_i hx
        simp only [pure_def, Prod.mk.injEq, Except.ok.injEq] at h2
        obtain ⟨rfl, rfl⟩ := h2
        have hnil : s.data.drop s.pos = [] := by
          rw [k3, List.length_take] at hx
          apply List.eq_nil_of_length_eq_zero
          have := k2 hz
          omega
        simp [hnil, k4, k5, hx]
      · rename_i hx
        have hxl : x.length ≤ need := by rw [k3, List.length_take]; omega
        obtain ⟨e1, e3, e4⟩ := ih (need - x.length) (by omega) (acc ++ x) h2
        have hdrop : s1.data.drop s1.pos = (s.data.drop s.pos).drop x.length := by rw [k4, k5, List.drop_drop]
        rw [hdrop] at e1 e4
        have hcat : x ++ ((s.data.drop s.pos).drop x.length).take (need - x.length)
            = (s.data.drop s.pos).take need := by
          generalize s.data.drop s.pos = d at hxe
          have : d.take need = d.take x.length ++ (d.drop x.length).take (need - x.length) := by
            rw [← List.take_add]
            congr 1
            omega
          rw [this, ← hxe]
        refine ⟨?_, by rw [e3, k4], ?_⟩
        · rw [e1, List.append_assoc, hcat]
        · rw [e4, k5, ← hcat, List.length_append]
          omega

theorem readBytes_ok {n : Nat} {s s' : RState} {b : Bytes} (h : readBytes n s = (.ok b, s')) :
    b = (s.data.drop s.pos).take n ∧ s'.data = s.data ∧ s'.pos = s.pos + b.length := by
  obtain ⟨h1, h2, h3⟩ := readUpToLoop_ok n [] h
  rw [List.nil_append] at h1
  exact ⟨h1, h2, by rw [h3, h1]⟩

theorem seekSched_ok {t r : Nat} {s s' : RState} {rs : List RdResp} (h : seekSched t s rs = (.ok r, s')) :
    r = t ∧ s'.data = s.data ∧ s'.pos = t ∧ s'.sched.isSome := by
  induction rs with
  | nil => simp [seekSched] at h
  | cons x rs ih =>
    cases x with
    | pending => exact ih (by simpa [seekSched] using h)
    | error c => simp [seekSched] at h
    | chunk c =>
      simp only [seekSched, Prod.mk.injEq, Except.ok.injEq] at h
      obtain ⟨rfl, rfl⟩ := h
      exact ⟨rfl, rfl, rfl, rfl⟩

theorem seekTo_ok {t r : Nat} {s s' : RState} (h : seekTo t s = (.ok r, s')) :
    r = t ∧ s'.data = s.data ∧ s'.pos = t := by
  unfold seekTo at h
  split at h
  · simp only [Prod.mk.injEq, Except.ok.injEq] at h
    obtain ⟨rfl, rfl⟩ := h
    exact ⟨rfl, rfl, rfl⟩
  · obtain ⟨h1, h2, h3, -⟩ := seekSched_ok h
    exact ⟨h1, h2, h3⟩

/-! ## Schedules do not matter -/

/-- The call was interrupted: dropped before completion, or the source reported an I/O error. -/
def Interrupted {α : Type} (r : Res α) : Prop :=
  r = .error .cancelled ∨ ∃ c, r = .error (.err (.upstreamReadError (.other c)))

/-- Under any schedule `m` is interrupted, or does what it does with a source that answers in full. -/
def ChunkIndep {α : Type} (m : Rd α) : Prop :=
  ∀ (data : Bytes) (pos : Nat) (log log' : List RdEvent) (rs : List RdResp),
    Interrupted (m ⟨data, pos, some rs, log⟩).1 ∨
    ((m ⟨data, pos, some rs, log⟩).1 = (m ⟨data, pos, none, log'⟩).1 ∧
      (m ⟨data, pos, some rs, log⟩).2.data = (m ⟨data, pos, none, log'⟩).2.data ∧
      (m ⟨data, pos, some rs, log⟩).2.pos = (m ⟨data, pos, none, log'⟩).2.pos ∧
      (∃ rs', (m ⟨data, pos, some rs, log⟩).2.sched = some rs') ∧
      (m ⟨data, pos, none, log'⟩).2.sched = none)

theorem ChunkIndep.pure {α : Type} (a : α) : ChunkIndep (pure a : Rd α) := by
  intro data pos log log' rs
  exact Or.inr ⟨rfl, rfl, rfl, ⟨rs, rfl⟩, rfl⟩

theorem ChunkIndep.lift {α : Type} (r : Res α) : ChunkIndep (lift r) := by
  intro data pos log log' rs
  exact Or.inr ⟨rfl, rfl, rfl, ⟨rs, rfl⟩, rfl⟩

theorem ChunkIndep.fail {α : Type} (e : Fail) : ChunkIndep (fail e : Rd α) := by
  intro data pos log log' rs
  exact Or.inr ⟨rfl, rfl, rfl, ⟨rs, rfl⟩, rfl⟩

theorem ChunkIndep.throwErr {α : Type} (e : ZipError) : ChunkIndep (throwErr e : Rd α) := ChunkIndep.fail _

theorem ChunkIndep.bind {α β : Type} {m : Rd α} {f : α → Rd β} (hm : ChunkIndep m) (hf : ∀ a, ChunkIndep (f a)) :
    ChunkIndep (m >>= f) := by
  intro data pos log log' rs
  rw [bind_def, bind_def]
  rcases hm data pos log log' rs with hi | ⟨h1, h2, h3, ⟨rs', h4⟩, h5⟩
  · left
    generalize m ⟨data, pos, some rs, log⟩ = r at hi
    obtain ⟨r, s1⟩ := r
    rcases hi with h | ⟨c, h⟩
    · simp only at h; subst h; exact Or.inl rfl
    · simp only at h; subst h; exact Or.inr ⟨c, rfl⟩
  · generalize m ⟨data, pos, some rs, log⟩ = r at *
    generalize m ⟨data, pos, none, log'⟩ = i at *
    obtain ⟨r, d1, p1, sc1, l1⟩ := r
    obtain ⟨i, d2, p2, sc2, l2⟩ := i
    simp only at h1 h2 h3 h4 h5
    subst h1 h2 h3 h4 h5
    cases r with
    | ok a => exact hf a d1 p1 l1 l2 rs'
    | error e => exact Or.inr ⟨rfl, rfl, rfl, ⟨rs', rfl⟩, rfl⟩

theorem ChunkIndep.ite {α : Type} {c : Prop} [Decidable c] {m m' : Rd α} (h : ChunkIndep m) (h' : ChunkIndep m') :
    ChunkIndep (if c then m else m') := by
  split <;> assumption

/-- A full read of `n` bytes on the ideal source, for the loops. -/
theorem readOnce_ideal (n : Nat) (data : Bytes) (pos : Nat) (log : List RdEvent) :
    readOnce n ⟨data, pos, none, log⟩ =
      (.ok ((data.drop pos).take n),
        ⟨data, pos + ((data.drop pos).take n).length, none, log ++ [.read pos n]⟩) := rfl

theorem readSched_error {n : Nat} {s s' : RState} {rs : List RdResp} {e : Fail}
    (h : readSched n s rs = (.error e, s')) : Interrupted (.error e : Res Bytes) := by
  induction rs with
  | nil => simp only [readSched, Prod.mk.injEq, Except.error.injEq] at h; exact Or.inl (by rw [← h.1])
  | cons r rs ih =>
    cases r with
    | pending => exact ih (by simpa [readSched] using h)
    | error c =>
      simp only [readSched, Prod.mk.injEq, Except.error.injEq] at h
      exact Or.inr ⟨c, by rw [← h.1]⟩
    | chunk c => simp [readSched] at h

theorem interrupted_cast {α β : Type} {e : Fail} (h : Interrupted (.error e : Res α)) : Interrupted (.error e : Res β) := by
  rcases h with h | ⟨c, h⟩
  · injection h with h; exact Or.inl (by rw [h])
  · injection h with h; exact Or.inr ⟨c, by rw [h]⟩

/-- The ideal `read_exact` in one step. -/
theorem readExactLoop_ideal (need : Nat) (acc : Bytes) (data : Bytes) (pos : Nat) (log : List RdEvent) :
    (need ≤ (data.drop pos).length → ∃ log', readExactLoop need acc ⟨data, pos, none, log⟩
      = (.ok (acc ++ (data.drop pos).take need), ⟨data, pos + need, none, log'⟩)) ∧
    ((data.drop pos).length < need → ∃ log', readExactLoop need acc ⟨data, pos, none, log⟩
      = (.error (.err (.upstreamReadError .unexpectedEof)), ⟨data, pos + (data.drop pos).length, none, log'⟩)) := by
  by_cases hz : need = 0
  · subst hz
    constructor
    · intro _; exact ⟨log, by unfold readExactLoop; simp⟩
    · intro h; omega
  · constructor
    · intro h
      unfold readExactLoop
      rw [if_neg hz, bind_of_ok (readOnce_ideal need data pos log), if_neg (by rw [List.length_take]; omega),
        show need - ((data.drop pos).take need).length = 0 by rw [List.length_take]; omega]
      unfold readExactLoop
      rw [if_pos rfl]
      exact ⟨_, by rw [pure_def, show ((data.drop pos).take need).length = need by rw [List.length_take]; omega]⟩
    · intro h
      unfold readExactLoop
      rw [if_neg hz, bind_of_ok (readOnce_ideal need data pos log), List.take_of_length_le (by omega)]
      split
      · rename_i hl; exact ⟨_, by simp [hl]; rfl⟩
      · rename_i hl
        unfold readExactLoop
        rw [if_neg (by omega), bind_of_ok (readOnce_ideal ..)]
        have hnil : (data.drop (pos + (data.drop pos).length)) = [] := by
          rw [← List.drop_drop]
          exact List.drop_length
        rw [hnil]
        exact ⟨_, by simp; rfl⟩

theorem readUpToLoop_ideal (need : Nat) (acc : Bytes) (data : Bytes) (pos : Nat) (log : List RdEvent) :
    ∃ log', readUpToLoop need acc ⟨data, pos, none, log⟩
      = (.ok (acc ++ (data.drop pos).take need), ⟨data, pos + ((data.drop pos).take need).length, none, log'⟩) := by
  have step : ∀ need acc pos log, need ≠ 0 → (data.drop pos).length = 0 → ∃ log',
      readUpToLoop need acc ⟨data, pos, none, log⟩ = (.ok acc, ⟨data, pos, none, log'⟩) := by
    intro need acc pos log hz hl
    unfold readUpToLoop
    rw [if_neg hz, bind_of_ok (readOnce_ideal need data pos log), List.eq_nil_of_length_eq_zero hl, List.take_nil]
    exact ⟨_, by simp; rfl⟩
  by_cases hz : need = 0
  · subst hz
    exact ⟨log, by unfold readUpToLoop; simp⟩
  · unfold readUpToLoop
    rw [if_neg hz, bind_of_ok (readOnce_ideal need data pos log)]
    by_cases hl : ((data.drop pos).take need).length = 0
    · rw [if_pos hl]
      have : (data.drop pos).take need = [] := List.eq_nil_of_length_eq_zero hl
      rw [this]
      exact ⟨_, by simp; rfl⟩
    · rw [if_neg hl]
      by_cases hfull : need ≤ (data.drop pos).length
      · rw [show need - ((data.drop pos).take need).length = 0 by rw [List.length_take]; omega]
        unfold readUpToLoop
        rw [if_pos rfl]
        exact ⟨_, rfl⟩
      · rw [List.take_of_length_le (by omega)]
        exact step _ _ _ _ (by omega) (by
          rw [← List.drop_drop, List.drop_length]; rfl)

theorem readExactLoop_chunkIndep (need : Nat) : ∀ acc : Bytes, ChunkIndep (readExactLoop need acc) := by
  intro acc data pos log log' rs
  by_cases hi : Interrupted (readExactLoop need acc ⟨data, pos, some rs, log⟩).1
  · exact Or.inl hi
  · right
    -- the scheduled run, by induction on what is still needed
    have key : ∀ (need : Nat) (acc : Bytes) (pos : Nat) (rs : List RdResp) (log : List RdEvent),
        ¬ Interrupted (readExactLoop need acc ⟨data, pos, some rs, log⟩).1 →
        (need ≤ (data.drop pos).length → ∃ rs' log'', readExactLoop need acc ⟨data, pos, some rs, log⟩
          = (.ok (acc ++ (data.drop pos).take need), ⟨data, pos + need, some rs', log''⟩)) ∧
        ((data.drop pos).length < need → ∃ rs' log'', readExactLoop need acc ⟨data, pos, some rs, log⟩
          = (.error (.err (.upstreamReadError .unexpectedEof)),
              ⟨data, pos + (data.drop pos).length, some rs', log''⟩)) := by
      intro need
      induction need using Nat.strongRecOn with
      | ind need ih =>
        intro acc pos rs log hi
        by_cases hz : need = 0
        · subst hz
          constructor
          · intro _; exact ⟨rs, log, by unfold readExactLoop; simp⟩
          · intro h; omega
        · unfold readExactLoop at hi ⊢
          rw [if_neg hz] at hi ⊢
          cases hr : readOnce need ⟨data, pos, some rs, log⟩ with
          | mk r s1 =>
            cases r with
            | error e =>
              rw [bind_of_error hr] at hi
              exact absurd (interrupted_cast (readSched_error hr)) hi
            | ok x =>
              rw [bind_of_ok hr] at hi ⊢
              obtain ⟨k, k1, k2, k3, k4, k5, k6⟩ := readSched_ok hr
              obtain ⟨d1, p1, sc1, l1⟩ := s1
              simp only at k3 k4 k5 k6
              subst k4 k5
              obtain ⟨rs1, rfl⟩ := Option.isSome_iff_exists.1 k6
              have hxe : x = (d1.drop pos).take x.length := by
                rw [k3, List.length_take, List.take_eq_take_iff]; omega
              have hxl : x.length ≤ (d1.drop pos).length := by rw [hxe, List.length_take]; omega
              have hxn : x.length ≤ need := by rw [k3, List.length_take]; omega
              by_cases hx : x.length = 0
              · rw [if_pos hx] at hi ⊢
                have h0 : (d1.drop pos).length = 0 := by
                  rw [k3, List.length_take] at hx
                  have := k2 hz
                  omega
                constructor
                · intro h; omega
                · intro _; exact ⟨rs1, l1, by rw [h0, hx]; rfl⟩
              · rw [if_neg hx] at hi ⊢
                obtain ⟨a1, a2⟩ := ih (need - x.length) (by omega) (acc ++ x) (pos + x.length) rs1 l1 hi
                have hdl : (d1.drop (pos + x.length)).length = (d1.drop pos).length - x.length := by
                  rw [List.length_drop, List.length_drop]; omega
                constructor
                · intro h
                  obtain ⟨rs', l', e⟩ := a1 (by omega)
                  refine ⟨rs', l', ?_⟩
                  rw [e]
                  have hcat : x ++ (d1.drop (pos + x.length)).take (need - x.length) = (d1.drop pos).take need := by
                    rw [← List.drop_drop]
                    generalize d1.drop pos = d at hxe
                    have : d.take need = d.take x.length ++ (d.drop x.length).take (need - x.length) := by
                      rw [← List.take_add]
                      congr 1
                      omega
                    rw [this, ← hxe]
                  rw [List.append_assoc, hcat, show pos + x.length + (need - x.length) = pos + need by omega]
                · intro h
                  obtain ⟨rs', l', e⟩ := a2 (by omega)
                  refine ⟨rs', l', ?_⟩
                  rw [e, hdl, show pos + x.length + ((d1.drop pos).length - x.length) = pos + (d1.drop pos).length by omega]
    obtain ⟨b1, b2⟩ := key need acc pos rs log hi
    obtain ⟨c1, c2⟩ := readExactLoop_ideal need acc data pos log'
    by_cases h : need ≤ (data.drop pos).length
    · obtain ⟨rs', l', e⟩ := b1 h
      obtain ⟨l'', e'⟩ := c1 h
      rw [e, e']
      exact ⟨rfl, rfl, rfl, ⟨rs', rfl⟩, rfl⟩
    · obtain ⟨rs', l', e⟩ := b2 (by omega)
      obtain ⟨l'', e'⟩ := c2 (by omega)
      rw [e, e']
      exact ⟨rfl, rfl, rfl, ⟨rs', rfl⟩, rfl⟩

theorem readUpToLoop_chunkIndep (need : Nat) (acc : Bytes) : ChunkIndep (readUpToLoop need acc) := by
  intro data pos log log' rs
  have herr : ∀ (need : Nat) (acc : Bytes) (s s' : RState) (e : Fail), s.sched.isSome →
      readUpToLoop need acc s = (.error e, s') → Interrupted (.error e : Res Bytes) := by
    intro need
    induction need using Nat.strongRecOn with
    | ind need ih =>
      intro acc s s' e hs h
      unfold readUpToLoop at h
      split at h
      · simp at h
      · rcases bind_error_iff.1 h with h | ⟨x, s1, h1, h2⟩
        · unfold readOnce at h
          split at h
          · rename_i hn; simp [hn] at hs
          · exact readSched_error h
        · split at h2
          · simp at h2
          · have : s1.sched.isSome := by
              unfold readOnce at h1
              split at h1
              · rename_i hn; simp [hn] at hs
              · obtain ⟨_, _, _, _, _, _, k6⟩ := readSched_ok h1; exact k6
            obtain ⟨k, k1, k2, k3, _⟩ := readOnce_ok h1
            exact ih _ (by omega) _ _ _ _ this h2
  have hsched : ∀ (need : Nat) (acc : Bytes) (s s' : RState) (b : Bytes), s.sched.isSome →
      readUpToLoop need acc s = (.ok b, s') → s'.sched.isSome := by
    intro need
    induction need using Nat.strongRecOn with
    | ind need ih =>
      intro acc s s' e hs h
      unfold readUpToLoop at h
      split at h
      · simp at h; rw [← h.2]; exact hs
      · obtain ⟨x, s1, h1, h2⟩ := bind_ok_iff.1 h
        have : s1.sched.isSome := by
          unfold readOnce at h1
          split at h1
          · rename_i hn; simp [hn] at hs
          · obtain ⟨_, _, _, _, _, _, k6⟩ := readSched_ok h1; exact k6
        split at h2
        · simp at h2; rw [← h2.2]; exact this
        · exact ih _ (by omega) _ _ _ _ this h2
  cases h : readUpToLoop need acc ⟨data, pos, some rs, log⟩ with
  | mk r s1 =>
    cases r with
    | error e => exact Or.inl (herr _ _ _ _ _ rfl h)
    | ok b =>
      right
      obtain ⟨e1, e2, e3⟩ := readUpToLoop_ok need acc h
      obtain ⟨l'', e'⟩ := readUpToLoop_ideal need acc data pos log'
      rw [e']
      exact ⟨by rw [e1], e2, e3, Option.isSome_iff_exists.1 (hsched _ _ _ _ _ rfl h), rfl⟩

theorem readExact_chunkIndep (n : Nat) : ChunkIndep (readExact n) := readExactLoop_chunkIndep n []
theorem readBytes_chunkIndep (n : Nat) : ChunkIndep (readBytes n) := readUpToLoop_chunkIndep n []

theorem seekSched_error {t : Nat} {s s' : RState} {rs : List RdResp} {e : Fail}
    (h : seekSched t s rs = (.error e, s')) : Interrupted (.error e : Res Nat) := by
  induction rs with
  | nil => simp only [seekSched, Prod.mk.injEq, Except.error.injEq] at h; exact Or.inl (by rw [← h.1])
  | cons r rs ih =>
    cases r with
    | pending => exact ih (by simpa [seekSched] using h)
    | error c =>
      simp only [seekSched, Prod.mk.injEq, Except.error.injEq] at h
      exact Or.inr ⟨c, by rw [← h.1]⟩
    | chunk c => simp [seekSched] at h

theorem seekTo_chunkIndep (t : Nat) : ChunkIndep (seekTo t) := by
  intro data pos log log' rs
  cases h : seekTo t ⟨data, pos, some rs, log⟩ with
  | mk r s1 =>
    cases r with
    | error e => exact Or.inl (seekSched_error h)
    | ok x =>
      right
      obtain ⟨h1, h2, h3, h4⟩ := seekSched_ok h
      exact ⟨by rw [h1]; rfl, h2, h3, Option.isSome_iff_exists.1 h4, rfl⟩

theorem seekEnd_chunkIndep : ChunkIndep seekEnd := fun data => seekTo_chunkIndep data.length data
theorem seekForward_chunkIndep (d : Nat) : ChunkIndep (seekForward d) :=
  fun data pos => seekTo_chunkIndep (pos + d) data pos

end Rd
end AsyncZip
