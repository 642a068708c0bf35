import Verif.Proofs.OpenSpec
/-!
# When opening panics
-/

namespace AsyncZip
open Spec Rd

/-- The computation never panics. -/
def NoPanic {α : Type} (m : Rd α) : Prop := ∀ s, (m s).1 ≠ .error .panic

theorem NoPanic.pure {α : Type} {a : α} : NoPanic (pure a : Rd α) := fun _ h => by cases h
theorem NoPanic.throwErr {α : Type} {e : ZipError} : NoPanic (throwErr e : Rd α) := fun _ h => by cases h
theorem NoPanic.lift {α : Type} {r : Res α} (h : r ≠ .error .panic) : NoPanic (lift r) := fun _ => h
theorem NoPanic.bind {α β : Type} {m : Rd α} {f : α → Rd β} (hm : NoPanic m) (hf : ∀ a, NoPanic (f a)) :
    NoPanic (m >>= f) := by
  intro s h
  rw [bind_def] at h
  cases hs : m s with
  | mk r s1 =>
    rw [hs] at h
    cases r with
    | ok a => exact hf a s1 h
    | error e =>
      have := hm s
      rw [hs] at this
      cases h
      exact this rfl
theorem NoPanic.ite {α : Type} {c : Prop} [Decidable c] {m m' : Rd α} (h : NoPanic m) (h' : NoPanic m') :
    NoPanic (if c then m else m') := by
  split <;> assumption

theorem readOnce_noPanic (n : Nat) : NoPanic (readOnce n) := by
  intro s h
  unfold readOnce at h
  split at h
  · cases h
  · rename_i rs _
    cases hr : readSched n s rs with
    | mk r s1 =>
      rw [hr] at h
      simp only at h
      subst h
      rcases readSched_error hr with h | ⟨c, h⟩ <;> cases h

theorem seekTo_noPanic (n : Nat) : NoPanic (seekTo n) := by
  intro s h
  cases hr : seekTo n s with
  | mk r s1 =>
    rw [hr] at h
    simp only at h
    subst h
    rcases seekTo_error hr with h | ⟨c, h⟩ <;> cases h

theorem readUpToLoop_noPanic (need : Nat) : ∀ acc, NoPanic (readUpToLoop need acc) := by
  induction need using Nat.strongRecOn with
  | ind need ih =>
    intro acc
    unfold readUpToLoop
    split
    · exact NoPanic.pure
    · refine NoPanic.bind (readOnce_noPanic _) fun b => ?_
      split
      · exact NoPanic.pure
      · exact ih _ (by omega) _

theorem readExactLoop_noPanic (need : Nat) : ∀ acc, NoPanic (readExactLoop need acc) := by
  induction need using Nat.strongRecOn with
  | ind need ih =>
    intro acc
    unfold readExactLoop
    split
    · exact NoPanic.pure
    · refine NoPanic.bind (readOnce_noPanic _) fun b => ?_
      split
      · exact NoPanic.throwErr
      · exact ih _ (by omega) _

theorem readExact_noPanic (n : Nat) : NoPanic (readExact n) := readExactLoop_noPanic n []
theorem readBytes_noPanic (n : Nat) : NoPanic (readBytes n) := readUpToLoop_noPanic n []
theorem seekEnd_noPanic : NoPanic seekEnd := fun s => seekTo_noPanic s.data.length s
theorem seekForward_noPanic (d : Nat) : NoPanic (seekForward d) := fun s => seekTo_noPanic (s.pos + d) s

theorem locateEocdr_noPanic : NoPanic locateEocdr := by
  have loop : ∀ length position, NoPanic (eocdrLoop length position) := by
    intro length position
    induction position using Nat.strongRecOn with
    | ind position ih =>
      unfold eocdrLoop
      refine NoPanic.bind (readUpToLoop_noPanic _ _) fun buffer => ?_
      split
      · exact NoPanic.pure
      · split
        · exact NoPanic.throwErr
        · refine NoPanic.bind (seekTo_noPanic _) fun _ => ih _ ?_
          rw [show BUFFER_SIZE - SIGNATURE_LENGTH = 2044 by decide]
          omega
  exact NoPanic.bind seekEnd_noPanic fun _ => NoPanic.bind (seekTo_noPanic _) fun _ => loop _ _

theorem assertSignature_noPanic (e : UInt32) : NoPanic (assertSignature e) :=
  NoPanic.bind (readExact_noPanic _) fun _ => NoPanic.ite NoPanic.pure NoPanic.throwErr

theorem tryFrom_noPanic (v : UInt16) : Compression.tryFrom v ≠ .error .panic := by
  unfold Compression.tryFrom
  repeat' split
  all_goals simp

/-- The bytes contain a central directory record whose extra fields end in a block claiming more bytes than remain. -/
def OverlongRecord (data : Bytes) : Prop :=
  ∃ off blocks tail, OccursAt data sigCentral off ∧ off + 46 ≤ data.length ∧
    Blocks (window data (off + 46 + fieldAt data (off + 28) 2) (fieldAt data (off + 30) 2)) blocks tail ∧ Overlong tail

theorem bind_panic {α β : Type} {m : Rd α} {f : α → Rd β} {s s' : RState} (h : (m >>= f) s = (.error .panic, s'))
    (hm : NoPanic m) : ∃ a s1, m s = (.ok a, s1) ∧ f a s1 = (.error .panic, s') := by
  rcases bind_error_iff.1 h with h | h
  · exact absurd (by rw [h]) (hm s)
  · exact h

theorem cdRecord_panic {b : Build} {s s' : RState} (h : cdRecord b s = (.error .panic, s')) :
    b.overflowChecks = true ∧ OverlongRecord s.data := by
  unfold cdRecord at h
  replace h := bind_panic h (assertSignature_noPanic _)
  obtain ⟨_, s1, h1, h⟩ := h
  obtain ⟨a1, a2, a3⟩ := assertSignature_ok h1
  replace h := bind_panic h (NoPanic.bind (readExact_noPanic _) fun _ => NoPanic.pure)
  obtain ⟨hd, s2, h2, h⟩ := h
  replace h2 := bind_ok_iff.1 h2
  obtain ⟨hb, s2', h2', h2''⟩ := h2
  obtain ⟨b1, b2, b3, b4⟩ := readExact_ok h2'
  simp only [pure_def, Prod.mk.injEq, Except.ok.injEq] at h2''
  obtain ⟨rfl, rfl⟩ := h2''
  simp only [] at h
  replace h := bind_panic h (readBytes_noPanic _)
  obtain ⟨fb, s3, h3, h⟩ := h
  obtain ⟨c1, c2, c3⟩ := readBytes_ok h3
  replace h := bind_panic h (NoPanic.lift (tryFrom_noPanic _))
  obtain ⟨cm, s4, h4, h⟩ := h
  obtain ⟨d1, rfl⟩ := lift_ok h4
  replace h := bind_panic h (readBytes_noPanic _)
  obtain ⟨xf, s5, h5, h⟩ := h
  obtain ⟨e1, e2, e3⟩ := readBytes_ok h5
  rw [a2, a3] at b1
  rw [b3, b4, a2, a3] at c1
  rw [b4, a3] at c3
  rw [b3, a2] at c2
  rw [c2] at e1
  have r16 := fun i h => read16 (data := s.data) (pos := s.pos + 4) b1 b2 i h
  have hlen : s.pos + 46 ≤ s.data.length := by
    have := congrArg List.length b1
    rw [List.length_take, List.length_drop, b2] at this
    omega
  have hn : (CentralDirectoryRecord.ofBytes hb).fileNameLength.toNat = fieldAt s.data (s.pos + 28) 2 := r16 24 (by omega)
  have hx : (CentralDirectoryRecord.ofBytes hb).extraFieldLength.toNat = fieldAt s.data (s.pos + 30) 2 := r16 26 (by omega)
  rw [hn] at c1
  rw [hx] at e1
  have w1 := window_step (data := s.data) (p := s.pos + 4 + 42) (q := s.pos + 46) (n := fieldAt s.data (s.pos + 28) 2)
    (Or.inl (by omega))
  rw [← c1, ← c3] at w1
  have w2 := window_step (n := fieldAt s.data (s.pos + 30) 2) w1.2
  rw [← e1] at w2
  rcases bind_error_iff.1 h with h | ⟨_, s6, h6, h⟩
  · simp only [lift_def, Prod.mk.injEq, parseExtraFields] at h
    rcases parse_any b _ _ xf with ⟨fs, rs, tail, p1, _⟩ | ⟨er, p1⟩ | ⟨p1, ho, rs, tail, p2, p3⟩
    · rw [p1] at h; cases h.1
    · rw [p1] at h; cases h.1
    · rw [w2.1] at p2
      exact ⟨ho, s.pos, rs, tail, a1, hlen, p2, p3⟩
  · replace h := bind_panic h (readBytes_noPanic _)
    obtain ⟨_, _, _, h⟩ := h
    simp at h

theorem cdLoop_panic {b : Build} (n : Nat) : ∀ {s s' : RState}, cdLoop b n s = (.error .panic, s') →
    b.overflowChecks = true ∧ OverlongRecord s.data := by
  induction n with
  | zero => intro s s' h; simp [cdLoop] at h
  | succ n ih =>
    intro s s' h
    unfold cdLoop at h
    rcases bind_error_iff.1 h with h | ⟨e, s1, h1, h⟩
    · exact cdRecord_panic h
    · rcases bind_error_iff.1 h with h | ⟨_, _, _, h⟩
      · have := ih h
        rw [(cdRecord_ok h1).2.1] at this
        exact this
      · simp at h

theorem readCombined_panic {b : Build} {j : Nat} {e : EndOfCentralDirectoryHeader} {s s' : RState}
    (h : readCombined b (j + 4) e s = (.error .panic, s')) :
    b.overflowChecks = true ∧ HasLocator s.data j ∧ 2 ^ 64 ≤ zip64End s.data j + 4 := by
  unfold readCombined at h
  split at h
  · simp at h
  · rename_i hge
    simp only [ZIP64_EOCDL_LENGTH, SIGNATURE_LENGTH] at hge h
    replace h := bind_panic h (seekTo_noPanic _)
    obtain ⟨_, s1, h1, h⟩ := h
    obtain ⟨_, a2, a3⟩ := seekTo_ok h1
    replace h := bind_panic h (NoPanic.bind (readExact_noPanic _) fun _ => NoPanic.ite NoPanic.pure
      (NoPanic.bind (readExact_noPanic _) fun _ => NoPanic.pure))
    obtain ⟨l, s2, h2, h⟩ := h
    unfold Zip64EndOfCentralDirectoryLocator.tryFromReader at h2
    replace h2 := bind_ok_iff.1 h2
    obtain ⟨sg, s3, h3, h2⟩ := h2
    obtain ⟨b1, b2, b3, b4⟩ := readExact_ok h3
    rw [a2, a3] at b1
    split at h2
    · rename_i hne
      simp only [pure_def, Prod.mk.injEq, Except.ok.injEq] at h2
      obtain ⟨rfl, rfl⟩ := h2
      simp at h
    · rename_i heq
      have hl : HasLocator s.data j := by
        have hs := Decidable.not_not.1 heq
        rw [fromLe32_eq_iff b2, show le32 ZIP64_EOCDL_SIGNATURE = sigLocator by decide] at hs
        refine ⟨by omega, ?_⟩
        unfold OccursAt
        rw [← hs, b2, b1, show j + 4 - (20 + 4) = j - 20 by omega]
      replace h2 := bind_ok_iff.1 h2
      obtain ⟨lb, s4, h4, h2⟩ := h2
      obtain ⟨c1, c2, c3, c4⟩ := readExact_ok h4
      rw [b3, b4, a2, a3] at c1
      simp only [pure_def, Prod.mk.injEq, Except.ok.injEq] at h2
      obtain ⟨rfl, rfl⟩ := h2
      simp only at h
      have hrel : (Zip64EndOfCentralDirectoryLocator.ofBytes lb).relativeOffset.toNat = zip64End s.data j := by
        have := read64 (data := s.data) c1 c2 4 (by omega)
        rw [show j + 4 - (20 + 4) + 4 + 4 = j - 20 + 8 by omega] at this
        exact this
      rcases bind_error_iff.1 h with h | ⟨tgt, s5, h5, h⟩
      · simp only [lift_def, Prod.mk.injEq] at h
        rw [hrel] at h
        have h := h.1
        unfold addU64 at h
        split at h
        · cases h
        · split at h
          · exact ⟨by assumption, hl, by omega⟩
          · cases h
      · replace h := bind_panic h (seekTo_noPanic _)
        obtain ⟨_, s6, h6, h⟩ := h
        replace h := bind_panic h (NoPanic.bind (readExact_noPanic _) fun _ => NoPanic.pure)
        obtain ⟨_, s7, h7, h⟩ := h
        simp at h

/-- Every panic while opening has one of three causes. -/
theorem openFile_panic {b : Build} {s s' : RState} (h : openFile b s = (.error .panic, s')) :
    ∃ j, LastEnd s.data j ∧
      ((HasLocator s.data j ∧ 2 ^ 64 ≤ zip64End s.data j + 4) ∨ b.maxVecEntries < declaredEntries s.data j ∨
        (b.overflowChecks = true ∧ OverlongRecord s.data)) := by
  unfold openFile at h
  replace h := bind_panic h locateEocdr_noPanic
  obtain ⟨off, s1, h1, h⟩ := h
  have k1 := (locateEocdr_keeps s).1
  rw [h1] at k1
  simp only at k1
  rcases locateEocdr_spec s s1 _ h1 with ⟨j, hr, ho, hl⟩ | ⟨hr, _⟩ | hi
  · simp only [Except.ok.injEq] at hr
    subst hr
    have hj : LastEnd s.data j := ⟨ho, hl⟩
    refine ⟨j, hj, ?_⟩
    replace h := bind_panic h (seekTo_noPanic _)
    obtain ⟨_, s2, h2, h⟩ := h
    obtain ⟨_, a2, a3⟩ := seekTo_ok h2
    replace h := bind_panic h (NoPanic.bind (readExact_noPanic _) fun _ => NoPanic.pure)
    obtain ⟨eo, s3, h3, h⟩ := h
    replace h3 := bind_ok_iff.1 h3
    obtain ⟨eb, s4, h4, h3⟩ := h3
    obtain ⟨b1, b2, b3, b4⟩ := readExact_ok h4
    simp only [pure_def, Prod.mk.injEq, Except.ok.injEq] at h3
    obtain ⟨rfl, rfl⟩ := h3
    rw [a2, a3, k1] at b1
    replace h := bind_panic h (NoPanic.bind (readBytes_noPanic _) fun _ => NoPanic.pure)
    obtain ⟨cm, s5, h5, h⟩ := h
    replace h5 := bind_ok_iff.1 h5
    obtain ⟨cb, s6, h6, h5⟩ := h5
    obtain ⟨c1, c2, c3⟩ := readBytes_ok h6
    simp only [pure_def, Prod.mk.injEq, Except.ok.injEq] at h5
    obtain ⟨rfl, rfl⟩ := h5
    have hd6 : s6.data = s.data := by rw [c2, b3, a2, k1]
    have hlen : j + 22 ≤ s.data.length := by
      have := congrArg List.length b1
      rw [List.length_take, List.length_drop, b2] at this
      omega
    rcases bind_error_iff.1 h with h | ⟨⟨r, z⟩, s7, h7, h⟩
    · obtain ⟨_, p2, p3⟩ := readCombined_panic h
      rw [hd6] at p2 p3
      exact Or.inl ⟨p2, p3⟩
    · by_cases hfit : HasLocator s.data j ∧ 2 ^ 64 ≤ zip64End s.data j + 4
      · exact Or.inl hfit
      · have hf : HasLocator s.data j → zip64End s.data j + 4 < 2 ^ 64 := by
          intro hlc
          rcases Nat.lt_or_ge (zip64End s.data j + 4) (2 ^ 64) with h | h
          · exact h
          · exact absurd ⟨hlc, h⟩ hfit
        have hc := readCombined_ok h7 (by rw [hd6]; exact hf) (by rw [hd6]; exact hlen) (by rw [hd6, b1])
        rw [hd6] at hc
        obtain ⟨g1, g2, g3, g4, g5, g6, g7⟩ := hc
        right
        simp only at h
        split at h
        · simp at h
        · replace h := bind_panic h (seekTo_noPanic _)
          obtain ⟨_, s8, h8, h⟩ := h
          obtain ⟨_, d2, d3⟩ := seekTo_ok h8
          rcases bind_error_iff.1 h with h | ⟨_, _, _, h⟩
          · unfold cd at h
            split at h
            · left; rw [← g6]; assumption
            · right
              have := cdLoop_panic _ h
              rw [d2, g1] at this
              exact this
          · simp at h
  · cases hr
  · exact absurd hi not_interrupted_ok

end AsyncZip
