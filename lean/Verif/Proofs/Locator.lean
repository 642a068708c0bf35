import Verif.Proofs.Rd
import Verif.Proofs.Le
import Verif.Spec.Layout
import Verif.Model.Read
/-!
# The end-of-central-directory locator
-/

namespace AsyncZip
open Spec Rd

/-- The four signature bytes. -/
def eocdrSig : Bytes := [0x50, 0x4B, 0x05, 0x06]

theorem le32_eocdr : le32 EOCDR_SIGNATURE = eocdrSig := by decide

theorem cmpBack_hit (buf : Bytes) (idx : Nat) (sr : Bytes) (k : Nat) :
    cmpBack buf idx sr k = .hit ↔ ∀ j, (hj : j < sr.length) → k + j ≤ idx ∧ buf[idx - (k + j)]? = some sr[j] := by
  induction sr generalizing k with
  | nil => simp [cmpBack]
  | cons x sr ih =>
    unfold cmpBack
    split
    · rename_i hk
      split
      · rename_i hne
        simp only [bne_iff_ne, ne_eq] at hne
        constructor
        · intro h; cases h
        · intro h
          exact absurd (h 0 (by simp)).2 (by simpa using hne)
      · rename_i heq
        simp only [bne_iff_ne, ne_eq, Decidable.not_not] at heq
        rw [ih]
        constructor
        · intro h j hj
          cases j with
          | zero => exact ⟨hk, heq⟩
          | succ j =>
            have := h j (by simpa using hj)
            rw [show k + 1 + j = k + (j + 1) by omega] at this
            simpa using this
        · intro h j hj
          have := h (j + 1) (by simpa using hj)
          rw [show k + (j + 1) = k + 1 + j by omega] at this
          simpa using this
    · rename_i hk
      constructor
      · intro h; cases h
      · intro h
        exact absurd (h 0 (by simp)).1 (by simpa using hk)

theorem cmpBack_underflow (buf : Bytes) (idx : Nat) (sr : Bytes) (k : Nat) (h : cmpBack buf idx sr k = .underflow) :
    idx < k + sr.length - 1 ∨ (idx < k ∧ sr ≠ []) := by
  induction sr generalizing k with
  | nil => simp [cmpBack] at h
  | cons x sr ih =>
    unfold cmpBack at h
    split at h
    · split at h
      · cases h
      · rcases ih (k + 1) h with h | ⟨h, hs⟩
        · left; simp; omega
        · left
          have := List.length_pos_iff.2 hs
          simp; omega
    · right; exact ⟨by omega, by simp⟩

/-- A hit at index `idx` is an occurrence of the four-byte pattern ending there. -/
theorem hit_iff_occurs (buf : Bytes) (a b c d : UInt8) (idx : Nat) :
    cmpBack buf idx [d, c, b, a] 0 = .hit ↔ 3 ≤ idx ∧ OccursAt buf [a, b, c, d] (idx - 3) := by
  rw [cmpBack_hit]
  have h4 : ∀ i, OccursAt buf [a, b, c, d] i ↔
      buf[i]? = some a ∧ buf[i + 1]? = some b ∧ buf[i + 2]? = some c ∧ buf[i + 3]? = some d := by
    intro i
    unfold OccursAt
    have e : ∀ j, (buf.drop i)[j]? = buf[i + j]? := fun j => by rw [List.getElem?_drop]
    rw [show buf[i]? = (buf.drop i)[0]? by rw [e]; rfl, ← e 1, ← e 2, ← e 3]
    generalize buf.drop i = l
    match l with
    | [] => simp
    | [_] => simp
    | [_, _] => simp
    | [_, _, _] => simp
    | w :: x :: y :: z :: _ => simp
  constructor
  · intro h
    have h0 := h 0 (by simp)
    have h1 := h 1 (by simp)
    have h2 := h 2 (by simp)
    have h3 := h 3 (by simp)
    refine ⟨h3.1, (h4 _).2 ?_⟩
    simp only [Nat.zero_add, List.getElem_cons_zero, List.getElem_cons_succ, Nat.sub_zero] at h0 h1 h2 h3
    rw [show idx - 3 + 1 = idx - 2 by omega, show idx - 3 + 2 = idx - 1 by omega, show idx - 3 + 3 = idx by omega]
    exact ⟨h3.2, h2.2, h1.2, h0.2⟩
  · rintro ⟨h3, ho⟩ j hj
    rw [h4] at ho
    rw [show idx - 3 + 1 = idx - 2 by omega, show idx - 3 + 2 = idx - 1 by omega, show idx - 3 + 3 = idx by omega] at ho
    match j, hj with
    | 0, _ => exact ⟨by omega, by simpa using ho.2.2.2⟩
    | 1, _ => exact ⟨by omega, by simpa using ho.2.2.1⟩
    | 2, _ => exact ⟨by omega, by simpa using ho.2.1⟩
    | 3, _ => exact ⟨by omega, by simpa using ho.1⟩

theorem searchFrom_some {buf : Bytes} {a b c d : UInt8} : ∀ {n i : Nat}, searchFrom buf [d, c, b, a] n = some i →
    3 ≤ i ∧ i < n ∧ OccursAt buf [a, b, c, d] (i - 3) ∧
      ∀ j, OccursAt buf [a, b, c, d] j → j + 3 < n → j ≤ i - 3 := by
  intro n
  induction n with
  | zero => intro i h; cases h
  | succ n ih =>
    intro i h
    unfold searchFrom at h
    split at h
    · rename_i hh
      cases h
      obtain ⟨h1, h2⟩ := (hit_iff_occurs ..).1 hh
      exact ⟨h1, by omega, h2, fun j _ hj => by omega⟩
    · rename_i hm
      obtain ⟨h1, h2, h3, h4⟩ := ih h
      refine ⟨h1, by omega, h3, fun j hj hlt => ?_⟩
      by_cases hjn : j + 3 = n
      · exfalso
        have : cmpBack buf n [d, c, b, a] 0 = .hit := (hit_iff_occurs ..).2 ⟨by omega, by
          rw [show n - 3 = j by omega]; exact hj⟩
        rw [this] at hm
        cases hm
      · exact h4 j hj (by omega)
    · cases h

theorem searchFrom_none {buf : Bytes} {a b c d : UInt8} : ∀ {n : Nat}, searchFrom buf [d, c, b, a] n = none →
    ∀ j, j + 3 < n → ¬ OccursAt buf [a, b, c, d] j := by
  intro n
  induction n with
  | zero => intro _ j hj; omega
  | succ n ih =>
    intro h j hj ho
    have hhit : j + 3 = n → cmpBack buf n [d, c, b, a] 0 = .hit := fun e =>
      (hit_iff_occurs ..).2 ⟨by omega, by rw [show n - 3 = j by omega]; exact ho⟩
    unfold searchFrom at h
    split at h
    · cases h
    · rename_i hm
      by_cases hjn : j + 3 = n
      · rw [hhit hjn] at hm; cases hm
      · exact ih h j (by omega) ho
    · rename_i hu
      by_cases hjn : j + 3 = n
      · rw [hhit hjn] at hu; cases hu
      · rcases cmpBack_underflow _ _ _ _ hu with h | h
        · simp at h; omega
        · omega

theorem occursAt_bound {buf pat : Bytes} {j : Nat} (h : OccursAt buf pat j) (hp : pat ≠ []) :
    j + pat.length ≤ buf.length := by
  have := congrArg List.length h
  rw [List.length_take, List.length_drop] at this
  have := List.length_pos_iff.2 hp
  omega

/-- The last occurrence in the window is found. -/
theorem reverseSearch_some {buf : Bytes} {i : Nat} (h : reverseSearchBuffer buf (le32 EOCDR_SIGNATURE) = some i) :
    3 ≤ i ∧ i < buf.length ∧ OccursAt buf eocdrSig (i - 3) ∧ ∀ j, OccursAt buf eocdrSig j → j ≤ i - 3 := by
  unfold reverseSearchBuffer at h
  rw [le32_eocdr] at h
  obtain ⟨h1, h2, h3, h4⟩ := searchFrom_some (a := 0x50) (b := 0x4B) (c := 5) (d := 6) h
  refine ⟨h1, h2, h3, fun j hj => h4 j hj ?_⟩
  have := occursAt_bound hj (by decide)
  simp [eocdrSig] at this
  omega

theorem reverseSearch_none {buf : Bytes} (h : reverseSearchBuffer buf (le32 EOCDR_SIGNATURE) = none) (j : Nat) :
    ¬ OccursAt buf eocdrSig j := by
  unfold reverseSearchBuffer at h
  rw [le32_eocdr] at h
  intro hj
  have := occursAt_bound hj (by decide)
  simp [eocdrSig] at this
  exact searchFrom_none (a := 0x50) (b := 0x4B) (c := 5) (d := 6) h j (by omega) hj

/-- Occurrences in a window are the occurrences in the data that lie within it. -/
theorem occursAt_window {data pat : Bytes} {p w j : Nat} (hp : pat ≠ []) :
    OccursAt ((data.drop p).take w) pat j ↔ OccursAt data pat (p + j) ∧ j + pat.length ≤ w := by
  constructor
  · intro h
    have hb := occursAt_bound h hp
    rw [List.length_take] at hb
    refine ⟨?_, by omega⟩
    unfold OccursAt at *
    rw [List.drop_take, List.take_take, List.drop_drop] at h
    rw [show min pat.length (w - j) = pat.length by omega] at h
    exact h
  · rintro ⟨h, hw⟩
    unfold OccursAt at *
    rw [List.drop_take, List.take_take, List.drop_drop, show min pat.length (w - j) = pat.length by omega]
    exact h

/-- A failing fill can only have been interrupted. -/
theorem readUpToLoop_error (need : Nat) : ∀ (acc : Bytes) (s s' : RState) (e : Fail),
    readUpToLoop need acc s = (.error e, s') → Interrupted (.error e : Res Bytes) := by
  induction need using Nat.strongRecOn with
  | ind need ih =>
    intro acc s s' e h
    unfold readUpToLoop at h
    split at h
    · simp at h
    · rcases bind_error_iff.1 h with h | ⟨x, s1, h1, h2⟩
      · unfold readOnce at h
        split at h
        · simp at h
        · exact readSched_error h
      · split at h2
        · simp at h2
        · obtain ⟨k, k1, k2, k3, _⟩ := readOnce_ok h1
          exact ih _ (by omega) _ _ _ _ h2

theorem seekTo_error {t : Nat} {s s' : RState} {e : Fail} (h : seekTo t s = (.error e, s')) :
    Interrupted (.error e : Res Nat) := by
  unfold seekTo at h
  split at h
  · simp at h
  · exact seekSched_error h

theorem eocdrLoop_spec (position : Nat) : ∀ (s s' : RState) (r : Res Nat), s.pos = position →
    (∀ j, OccursAt s.data eocdrSig j → j ≤ position + 2044) →
    (position = 0 ∧ s.data.length ≤ 67456 ∨ ∃ k, k ≤ 32 ∧ position + 2048 + 2044 * k = s.data.length) →
    eocdrLoop s.data.length position s = (r, s') →
    (∃ j, r = .ok (j + 4) ∧ OccursAt s.data eocdrSig j ∧ (∀ j', OccursAt s.data eocdrSig j' → j' ≤ j) ∧
      s.data.length ≤ j + 67456) ∨
    (r = .error (.err .unableToLocateEOCDR) ∧ ∀ j, OccursAt s.data eocdrSig j → j + 67456 < s.data.length) ∨
    Interrupted r := by
  induction position using Nat.strongRecOn with
  | ind position ih =>
    intro s s' r hpos hinv hk h
    unfold eocdrLoop at h
    cases hf : fillBuffer s with
    | mk fr s1 =>
      cases fr with
      | error e =>
        rw [bind_of_error hf] at h
        injection h with h _
        rw [← h]
        exact Or.inr (Or.inr (interrupted_cast (readUpToLoop_error _ _ _ _ _ hf)))
      | ok buffer =>
        rw [bind_of_ok hf] at h
        obtain ⟨e1, e2, e3⟩ := readUpToLoop_ok _ _ hf
        rw [List.nil_append, hpos, show BUFFER_SIZE = 2048 from rfl] at e1
        have hwin : ∀ j, OccursAt buffer eocdrSig j ↔ OccursAt s.data eocdrSig (position + j) ∧ j + 4 ≤ 2048 := by
          intro j
          rw [e1, occursAt_window (by decide)]
          rfl
        cases hi : reverseSearchBuffer buffer (le32 EOCDR_SIGNATURE) with
        | some i =>
          rw [hi] at h
          obtain ⟨i1, i2, i3, i4⟩ := reverseSearch_some hi
          simp only [pure_def, Prod.mk.injEq] at h
          left
          refine ⟨position + (i - 3), ?_, ((hwin _).1 i3).1, ?_, by omega⟩
          · rw [← h.1]; congr 1; omega
          · intro j' hj'
            by_cases hlt : j' < position
            · omega
            · have hb := hinv j' hj'
              have := i4 (j' - position) ((hwin _).2 ⟨by rw [show position + (j' - position) = j' by omega]; exact hj', by omega⟩)
              omega
        | none =>
          rw [hi] at h
          have hn := hi
          simp only at h
          have hnone : ∀ j, OccursAt s.data eocdrSig j → j < position := by
            intro j hj
            by_cases hlt : j < position
            · exact hlt
            · have hb := hinv j hj
              exact absurd ((hwin (j - position)).2 ⟨by rw [show position + (j - position) = j by omega]; exact hj, by omega⟩)
                (reverseSearch_none hn _)
          split at h
          · rename_i hstop
            simp only [throwErr_def, Prod.mk.injEq] at h
            right; left
            refine ⟨h.1.symm, fun j hj => ?_⟩
            have := hnone j hj
            have hlow : EOCDR_LOWER_BOUND = 65557 := by decide
            rw [hlow] at hstop
            omega
          · rename_i hgo
            have hlow : EOCDR_LOWER_BOUND = 65557 := by decide
            rw [hlow] at hgo
            cases hs : seekStart (position - (BUFFER_SIZE - SIGNATURE_LENGTH)) s1 with
            | mk sr s2 =>
              cases sr with
              | error e =>
                rw [bind_of_error hs] at h
                injection h with h _
                rw [← h]
                exact Or.inr (Or.inr (interrupted_cast (seekTo_error hs)))
              | ok x =>
                rw [bind_of_ok hs] at h
                obtain ⟨_, t2, t3⟩ := seekTo_ok hs
                rw [show BUFFER_SIZE - SIGNATURE_LENGTH = 2044 from rfl] at h t3
                have hdata : s2.data = s.data := by rw [t2, e2]
                have := ih (position - 2044) (by omega) s2 s' r t3
                  (by intro j hj; rw [hdata] at hj; have := hnone j hj; omega)
                  (by
                    rw [hdata]
                    rcases hk with hk | ⟨k, hk, hk'⟩
                    · omega
                    · by_cases hlt : position ≤ 2044
                      · left; omega
                      · exact Or.inr ⟨k + 1, by omega, by omega⟩)
                  (by rw [hdata]; exact h)
                rw [hdata] at this
                exact this

theorem locateEocdr_reach (s s' : RState) (r : Res Nat) (h : locateEocdr s = (r, s')) :
    (∃ j, r = .ok (j + 4) ∧ OccursAt s.data eocdrSig j ∧ (∀ j', OccursAt s.data eocdrSig j' → j' ≤ j) ∧
      s.data.length ≤ j + 67456) ∨
    (r = .error (.err .unableToLocateEOCDR) ∧ ∀ j, OccursAt s.data eocdrSig j → j + 67456 < s.data.length) ∨
    Interrupted r := by
  unfold locateEocdr at h
  cases hf : seekEnd s with
  | mk fr s1 =>
    cases fr with
    | error e =>
      rw [bind_of_error hf] at h
      injection h with h _
      rw [← h]
      exact Or.inr (Or.inr (interrupted_cast (seekTo_error hf)))
    | ok len =>
      rw [bind_of_ok hf] at h
      obtain ⟨h1, h2, h3⟩ := seekTo_ok hf
      cases hs : seekStart (len - BUFFER_SIZE) s1 with
      | mk sr s2 =>
        cases sr with
        | error e =>
          rw [bind_of_error hs] at h
          injection h with h _
          rw [← h]
          exact Or.inr (Or.inr (interrupted_cast (seekTo_error hs)))
        | ok x =>
          rw [bind_of_ok hs] at h
          obtain ⟨_, t2, t3⟩ := seekTo_ok hs
          have hdata : s2.data = s.data := by rw [t2, h2]
          have := eocdrLoop_spec (len - BUFFER_SIZE) s2 s' r t3
            (by
              intro j hj
              have := occursAt_bound hj (by decide)
              rw [hdata] at this
              simp only [eocdrSig, List.length_cons, List.length_nil] at this
              rw [show BUFFER_SIZE = 2048 from rfl]
              omega)
            (by
              rw [hdata, ← h1, show BUFFER_SIZE = 2048 from rfl]
              by_cases hlt : len ≤ 2048
              · left; omega
              · exact Or.inr ⟨0, by omega, by omega⟩)
            (by rw [hdata, ← h1]; exact h)
          rw [hdata] at this
          exact this

theorem locateEocdr_spec (s s' : RState) (r : Res Nat) (h : locateEocdr s = (r, s')) :
    (∃ j, r = .ok (j + 4) ∧ OccursAt s.data eocdrSig j ∧ ∀ j', OccursAt s.data eocdrSig j' → j' ≤ j) ∨
    (r = .error (.err .unableToLocateEOCDR) ∧ ∀ j, OccursAt s.data eocdrSig j → j + 65557 < s.data.length) ∨
    Interrupted r :=
  (locateEocdr_reach s s' r h).imp (fun ⟨j, h1, h2, h3, _⟩ => ⟨j, h1, h2, h3⟩)
    (Or.imp (fun ⟨h1, h2⟩ => ⟨h1, fun j hj => by have := h2 j hj; omega⟩) id)

/-! ## I/O of the locator -/

/-- Requests made by a computation, given where it may read and how many seeks it makes. -/
def Logs {α : Type} (m : Rd α) (s : RState) (P : RdEvent → Prop) (k : Nat) : Prop :=
  ∃ new, (m s).2.log = s.log ++ new ∧ (∀ e ∈ new, P e) ∧ (new.filter fun e => match e with | .seek _ => true | _ => false).length ≤ k

theorem Logs.pure {α : Type} {a : α} {s : RState} {P : RdEvent → Prop} : Logs (pure a : Rd α) s P 0 :=
  ⟨[], by simp, by simp, by simp⟩
theorem Logs.fail {α : Type} {e : Fail} {s : RState} {P : RdEvent → Prop} : Logs (fail e : Rd α) s P 0 :=
  ⟨[], by simp, by simp, by simp⟩

theorem Logs.mono {α : Type} {m : Rd α} {s : RState} {P Q : RdEvent → Prop} {k k' : Nat} (h : Logs m s P k)
    (hP : ∀ e, P e → Q e) (hk : k ≤ k') : Logs m s Q k' := by
  obtain ⟨new, h1, h2, h3⟩ := h
  exact ⟨new, h1, fun e he => hP e (h2 e he), by omega⟩

theorem Logs.bind {α β : Type} {m : Rd α} {f : α → Rd β} {s : RState} {P : RdEvent → Prop} {k k' : Nat}
    (hm : Logs m s P k) (hf : ∀ a s1, m s = (.ok a, s1) → Logs (f a) s1 P k') : Logs (m >>= f) s P (k + k') := by
  obtain ⟨new, h1, h2, h3⟩ := hm
  cases hr : m s with
  | mk r s1 =>
    cases r with
    | error e =>
      refine ⟨new, ?_, h2, by omega⟩
      rw [bind_of_error hr]
      rw [hr] at h1
      exact h1
    | ok a =>
      obtain ⟨new', g1, g2, g3⟩ := hf a s1 hr
      refine ⟨new ++ new', ?_, ?_, ?_⟩
      · rw [bind_of_ok hr, g1]
        rw [hr] at h1
        simp only at h1
        rw [h1, List.append_assoc]
      · intro e he
        rcases List.mem_append.1 he with he | he
        · exact h2 e he
        · exact g2 e he
      · rw [List.filter_append, List.length_append]; omega

theorem readSched_log (n : Nat) (s : RState) (rs : List RdResp) :
    (readSched n s rs).2.log = s.log ++ [.read s.pos n] := by
  induction rs with
  | nil => rfl
  | cons r rs ih =>
    cases r with
    | pending => exact ih
    | _ => rfl

theorem readOnce_log (n : Nat) (s : RState) : (readOnce n s).2.log = s.log ++ [.read s.pos n] := by
  unfold readOnce
  split
  · rfl
  · exact readSched_log ..

theorem seekSched_log (t : Nat) (s : RState) (rs : List RdResp) :
    (seekSched t s rs).2.log = s.log ++ [.seek t] := by
  induction rs with
  | nil => rfl
  | cons r rs ih =>
    cases r with
    | pending => exact ih
    | _ => rfl

theorem seekTo_log (t : Nat) (s : RState) : (seekTo t s).2.log = s.log ++ [.seek t] := by
  unfold seekTo
  split
  · rfl
  · exact seekSched_log ..

/-- A fill reads forward from where it starts. -/
theorem readUpToLoop_logs (low : Nat) (need : Nat) : ∀ (acc : Bytes) (s : RState), low ≤ s.pos →
    Logs (readUpToLoop need acc) s (fun e => ∃ p n, e = .read p n ∧ low ≤ p) 0 := by
  induction need using Nat.strongRecOn with
  | ind need ih =>
    intro acc s hlow
    unfold readUpToLoop
    split
    · exact Logs.pure
    · refine Logs.bind (k := 0) (k' := 0) ⟨[.read s.pos need], readOnce_log .., ?_, by simp⟩ ?_
      · intro e he
        simp only [List.mem_singleton] at he
        exact ⟨_, _, he, hlow⟩
      · intro x s1 h1
        split
        · exact Logs.pure
        · obtain ⟨k, k1, k2, k3, k4, k5⟩ := readOnce_ok h1
          exact ih _ (by omega) _ _ (by omega)

/-- Reads and seeks of the locator stay near the end of the data. -/
def NearEnd (length : Nat) (e : RdEvent) : Prop :=
  match e with
  | .read p _ => length ≤ p + 65557 + 2044
  | .seek t => length ≤ t + 65557 + 2044

theorem eocdrLoop_logs (length : Nat) (position : Nat) : ∀ (s : RState) (k : Nat), s.pos = position →
    length ≤ position + 65557 + 2044 → position ≤ (length - 65557) + 2044 * k →
    Logs (eocdrLoop length position) s (NearEnd length) k := by
  induction position using Nat.strongRecOn with
  | ind position ih =>
    intro s k hpos hlow hk
    unfold eocdrLoop
    rw [← Nat.zero_add k]
    refine Logs.bind (k := 0) (k' := k) ?_ ?_
    · exact (readUpToLoop_logs position BUFFER_SIZE [] s (by omega)).mono
        (by rintro e ⟨p, n, rfl, hp⟩; show length ≤ p + 65557 + 2044; omega) (Nat.le_refl _)
    · intro buffer s1 hf
      split
      · exact Logs.pure.mono (fun _ h => h) (Nat.zero_le _)
      · split
        · exact Logs.fail.mono (fun _ h => h) (Nat.zero_le _)
        · rename_i hgo
          rw [show EOCDR_LOWER_BOUND = 65557 by decide] at hgo
          rw [show BUFFER_SIZE - SIGNATURE_LENGTH = 2044 by decide]
          have hk1 : 1 ≤ k := by omega
          refine (Logs.bind (k := 1) (k' := k - 1) ⟨[.seek (position - 2044)], seekTo_log .., ?_, by simp⟩ ?_).mono
            (fun _ h => h) (by omega)
          · intro e he
            simp only [List.mem_singleton] at he
            subst he
            show length ≤ position - 2044 + 65557 + 2044
            omega
          · intro x s2 hs
            obtain ⟨_, _, t3⟩ := seekTo_ok hs
            exact ih (position - 2044) (by omega) s2 (k - 1) t3 (by omega) (by omega)

theorem locateEocdr_logs (s : RState) : Logs locateEocdr s (NearEnd s.data.length) 34 := by
  unfold locateEocdr
  refine Logs.bind (k := 1) (k' := 33) ⟨[.seek s.data.length], seekTo_log .., ?_, by simp⟩ ?_
  · intro e he
    simp only [List.mem_singleton] at he
    subst he
    show s.data.length ≤ s.data.length + 65557 + 2044
    omega
  · intro len s1 h1
    obtain ⟨e1, e2, e3⟩ := seekTo_ok h1
    subst e1
    refine Logs.bind (k := 1) (k' := 32) ⟨[.seek (s.data.length - BUFFER_SIZE)], seekTo_log .., ?_, by simp⟩ ?_
    · intro e he
      simp only [List.mem_singleton] at he
      subst he
      show s.data.length ≤ s.data.length - 2048 + 65557 + 2044
      omega
    · intro x s2 h2
      obtain ⟨_, _, t3⟩ := seekTo_ok h2
      refine eocdrLoop_logs _ _ s2 32 t3 ?_ ?_ <;> rw [show BUFFER_SIZE = 2048 from rfl] <;> omega

end AsyncZip
