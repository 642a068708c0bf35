import Verif.Model.Narrow
import Verif.Spec.Narrow
import Verif.Proofs.Openable
import Verif.Proofs.OpenPanic
/-!
# Readers on targets with a narrower `usize`, compared with those on 64-bit targets
-/

namespace AsyncZip
open Rd Spec

/-- The errors in which the targets differ. -/
def Special : Fail → Prop
  | .err .targetZip64NotSupported => True
  | .err (.invalidExtraFieldHeader _ _) => True
  | _ => False

/-- The computation has none of these errors. -/
def Plain {α : Type} (m : Rd α) : Prop := ∀ s e s', m s = (.error e, s') → ¬ Special e

theorem narrow_plain {top : Nat} {e : Fail} (h : ¬ Special e) : narrow top e = e := by
  unfold narrow
  split
  · exact absurd trivial h
  · rfl

namespace Plain
variable {α β : Type}

theorem pure {a : α} : Plain (pure a : Rd α) := fun _ _ _ h => by cases h
theorem throwErr {e : ZipError} (h : ¬ Special (.err e)) : Plain (throwErr e : Rd α) := fun _ _ _ h1 => by cases h1; exact h
theorem lift {r : Res α} (h : ∀ e, r = .error e → ¬ Special e) : Plain (lift r) := fun s e s' h1 => by
  simp only [lift_def, Prod.mk.injEq] at h1
  exact h e h1.1
theorem bind {m : Rd α} {f : α → Rd β} (hm : Plain m) (hf : ∀ a, Plain (f a)) : Plain (m >>= f) := by
  intro s e s' h
  rcases bind_error_iff.1 h with h | ⟨a, s1, _, h⟩
  · exact hm _ _ _ h
  · exact hf _ _ _ _ h
theorem ite {c : Prop} [Decidable c] {m m' : Rd α} (h : Plain m) (h' : Plain m') : Plain (if c then m else m') := by
  split <;> assumption

end Plain

theorem readOnce_plain (n : Nat) : Plain (readOnce n) := by
  intro s e s' h
  unfold readOnce at h
  split at h
  · cases h
  · rename_i rs _
    cases hr : readSched n s rs with
    | mk r s1 =>
      rw [hr] at h
      simp only [Prod.mk.injEq] at h
      obtain ⟨rfl, rfl⟩ := h
      rcases readSched_error hr with h | ⟨c, h⟩ <;> (cases h; exact id)

theorem seekTo_plain (n : Nat) : Plain (seekTo n) := by
  intro s e s' h
  rcases seekTo_error h with h | ⟨c, h⟩ <;> (cases h; exact id)

theorem readUpToLoop_plain (need : Nat) : ∀ acc, Plain (readUpToLoop need acc) := by
  induction need using Nat.strongRecOn with
  | ind need ih =>
    intro acc
    unfold readUpToLoop
    split
    · exact Plain.pure
    · refine Plain.bind (readOnce_plain _) fun b => ?_
      split
      · exact Plain.pure
      · exact ih _ (by omega) _

theorem readExactLoop_plain (need : Nat) : ∀ acc, Plain (readExactLoop need acc) := by
  induction need using Nat.strongRecOn with
  | ind need ih =>
    intro acc
    unfold readExactLoop
    split
    · exact Plain.pure
    · refine Plain.bind (readOnce_plain _) fun b => ?_
      split
      · exact Plain.throwErr id
      · exact ih _ (by omega) _

theorem readExact_plain (n : Nat) : Plain (readExact n) := readExactLoop_plain n []
theorem readBytes_plain (n : Nat) : Plain (readBytes n) := readUpToLoop_plain n []

theorem locateEocdr_plain : Plain locateEocdr := by
  have loop : ∀ length position, Plain (eocdrLoop length position) := by
    intro length position
    induction position using Nat.strongRecOn with
    | ind position ih =>
      unfold eocdrLoop
      refine Plain.bind (readUpToLoop_plain _ _) fun buffer => ?_
      split
      · exact Plain.pure
      · split
        · exact Plain.throwErr id
        · refine Plain.bind (seekTo_plain _) fun _ => ih _ ?_
          rw [show BUFFER_SIZE - SIGNATURE_LENGTH = 2044 by decide]
          omega
  exact Plain.bind (fun s => seekTo_plain s.data.length s) fun _ => Plain.bind (seekTo_plain _) fun _ => loop _ _

theorem assertSignature_plain (e : UInt32) : Plain (assertSignature e) :=
  Plain.bind (readExact_plain _) fun _ => Plain.ite Plain.pure (Plain.throwErr id)

theorem tryFrom_plain (v : UInt16) : ∀ e, Compression.tryFrom v = .error e → ¬ Special e := by
  intro e h
  unfold Compression.tryFrom at h
  repeat' split at h
  all_goals first | cases h; done | (cases h; exact id)

theorem readCombined_plain (b : Build) (j : Nat) (eo : EndOfCentralDirectoryHeader) : Plain (readCombined b j eo) := by
  unfold readCombined
  refine Plain.ite Plain.pure (Plain.bind (seekTo_plain _) fun _ => Plain.bind (Plain.bind (readExact_plain _) fun _ =>
    Plain.ite Plain.pure (Plain.bind (readExact_plain _) fun _ => Plain.pure)) fun l => ?_)
  split
  · refine Plain.bind (Plain.lift fun e h => ?_) fun _ => Plain.bind (seekTo_plain _) fun _ =>
      Plain.bind (Plain.bind (readExact_plain _) fun _ => Plain.pure) fun _ => Plain.pure
    unfold addU64 at h
    repeat' split at h
    all_goals first | cases h; done | (cases h; exact id)
  · exact Plain.pure

/-- A result with another error. -/
def mapFail (φ : Fail → Fail) {α : Type} : Res α → Res α
  | .ok a => .ok a
  | .error e => .error (φ e)

/-- `n` does what `m` does, up to `φ`. -/
def Narrows (φ : Fail → Fail) {α : Type} (n m : Rd α) : Prop := ∀ s, n s = (mapFail φ (m s).1, (m s).2)

/-- Errors that are alike on all targets are left alone. -/
def Leaves (φ : Fail → Fail) : Prop := ∀ e, ¬ Special e → φ e = e

namespace Narrows
variable {φ : Fail → Fail} {α β : Type}

theorem same (hφ : Leaves φ) {m : Rd α} (h : Plain m) : Narrows φ m m := by
  intro s
  rcases hm : m s with ⟨e | a, s'⟩
  · simp only [mapFail, hφ e (h s e s' hm)]
  · rfl

theorem bind {n m : Rd α} {g f : α → Rd β} (h : Narrows φ n m) (h' : ∀ a, Narrows φ (g a) (f a)) :
    Narrows φ (n >>= g) (m >>= f) := by
  intro s
  have := h s
  simp only [Bind.bind]
  rw [this]
  rcases m s with ⟨e | a, s'⟩
  · rfl
  · exact h' a s'

theorem ite {c : Prop} [Decidable c] {a b a' b' : Rd α} (h : Narrows φ a a') (h' : Narrows φ b b') :
    Narrows φ (if c then a else b) (if c then a' else b') := by
  split
  · exact h
  · exact h'

end Narrows

theorem infoZip_plain {e : ZipError} (he : ¬ Special (.err e)) (n : UInt16) (d : Bytes) (x : Fail)
    (h : infoZipFromBytes e n d = .error x) : ¬ Special x := by
  unfold infoZipFromBytes sliceChecked at h
  repeat' split at h
  all_goals first | (cases h; done) | (cases h; exact he) | (cases h; exact id)

theorem extraField_plain (id' n : UInt16) (d : Bytes) (us cs : UInt32) (x : Fail)
    (h : extraFieldFromBytes id' n d us cs = .error x) : ¬ Special x := by
  unfold extraFieldFromBytes at h
  split at h
  · cases h
  · split at h
    · rcases hi : infoZipFromBytes .infoZipUnicodeCommentFieldIncomplete n d with e | f
      · rw [hi] at h; cases h; exact infoZip_plain (e := .infoZipUnicodeCommentFieldIncomplete) id n d x hi
      · rw [hi] at h; cases h
    · split at h
      · rcases hi : infoZipFromBytes .infoZipUnicodePathFieldIncomplete n d with e | f
        · rw [hi] at h; cases h; exact infoZip_plain (e := .infoZipUnicodePathFieldIncomplete) id n d x hi
        · rw [hi] at h; cases h
      · cases h

theorem extraRemainingAt_eq {top : Nat} (hd : top ∣ 2 ^ 64) (ht : 2 ^ 17 ≤ top) (b : Build) (size : UInt16) (n : Nat)
    (h : n < 4 + size.toNat) :
    (extraRemainingAt top b n size.toNat >>= fun r => (.error (.err (.invalidExtraFieldHeader size r)) : Res (List ExtraField))) =
      mapFail (narrow top) (extraRemaining b n size.toNat >>= fun r => .error (.err (.invalidExtraFieldHeader size r))) := by
  have hs := size.toNat_lt
  unfold extraRemainingAt extraRemaining
  have h1 : ¬ 8 + size.toNat ≤ n := by omega
  rw [if_neg h1, if_neg h1]
  by_cases hb : b.overflowChecks = true
  · rw [if_pos hb, if_pos hb]; rfl
  · rw [if_neg hb, if_neg hb]
    simp only [Bind.bind, Except.bind, mapFail, narrow]
    congr 4
    obtain ⟨k, hk⟩ := hd
    have hk0 : 0 < k := by
      rcases Nat.eq_zero_or_pos k with h0 | h0
      · rw [h0] at hk; simp at hk
      · exact h0
    rw [hk]
    obtain ⟨k, rfl⟩ : ∃ k', k = k' + 1 := ⟨k - 1, by omega⟩
    have e1 : top * (k + 1) + n - 8 - size.toNat = (top + n - 8 - size.toNat) + top * k := by
      rw [Nat.mul_succ]
      clear hk
      generalize top * k = z
      omega
    rw [e1, Nat.add_mul_mod_self_left, Nat.mod_eq_of_lt (by omega)]

theorem parseExtraLoopAt_eq {top : Nat} (hd : top ∣ 2 ^ 64) (ht : 2 ^ 17 ≤ top) (b : Build) (us cs : UInt32) (d : Bytes) :
    parseExtraLoopAt top b us cs d = mapFail (narrow top) (parseExtraLoop b us cs d) := by
  induction hn : d.length using Nat.strongRecOn generalizing d with
  | _ n ih =>
  rw [parseExtraLoopAt, parseExtraLoop]
  split
  · simp only []
    split
    · exact extraRemainingAt_eq hd ht b _ _ (by omega)
    · have := ih (d.drop (4 + (fromLe16 (slice d 2 4)).toNat)).length (by rw [List.length_drop]; omega) _ rfl
      rcases hx : extraFieldFromBytes (fromLe16 (slice d 0 2)) (fromLe16 (slice d 2 4))
        (slice d 4 (4 + (fromLe16 (slice d 2 4)).toNat)) us cs with e | f
      · simp only [Bind.bind, Except.bind, mapFail, narrow_plain (extraField_plain _ _ _ _ _ e hx)]
      · simp only [Bind.bind, Except.bind]
        rw [this]
        rcases parseExtraLoop b us cs (d.drop (4 + (fromLe16 (slice d 2 4)).toNat)) with e | fs <;> rfl
  · rfl

/-- What parsing extra fields does, up to `φ`. -/
def Parses (top : Nat) (φ : Fail → Fail) (b : Build) : Prop :=
  ∀ us cs d, parseExtraLoopAt top b us cs d = mapFail φ (parseExtraLoop b us cs d)

theorem leaves_narrow (top : Nat) : Leaves (narrow top) := fun _ h => narrow_plain h

section
variable {top : Nat} {φ : Fail → Fail} {b : Build} (hφ : Leaves φ) (hp : Parses top φ b)
include hφ hp

omit hφ in
theorem parse_narrows (us cs : UInt32) (d : Bytes) :
    Narrows φ (Rd.lift (parseExtraLoopAt top b us cs d)) (Rd.lift (parseExtraFields b d us cs)) := by
  intro s
  rw [hp]
  rfl

theorem cdRecord_narrows : Narrows φ (cdRecordAt top b) (cdRecord b) :=
  .bind (.same hφ (assertSignature_plain _)) fun _ => .bind (.same hφ (.bind (readExact_plain _) fun _ => .pure)) fun _ =>
    .bind (.same hφ (readBytes_plain _)) fun _ => .bind (.same hφ (.lift (tryFrom_plain _))) fun _ =>
    .bind (.same hφ (readBytes_plain _)) fun _ => .bind (parse_narrows hp _ _ _) fun _ =>
    .bind (.same hφ (readBytes_plain _)) fun _ => .same hφ .pure

theorem cdLoop_narrows (n : Nat) : Narrows φ (cdLoopAt top b n) (cdLoop b n) := by
  induction n with
  | zero => exact .same hφ .pure
  | succ n ih => exact .bind (cdRecord_narrows hφ hp) fun _ => .bind ih fun _ => .same hφ .pure

theorem lfh_narrows : Narrows φ (lfhAt top b) (lfh b) :=
  .bind (.same hφ (readExact_plain _)) fun _ => .ite
    (.bind (.same hφ (.bind (readExact_plain _) fun _ => .pure)) fun _ => .bind (.same hφ (readBytes_plain _)) fun _ =>
      .bind (.same hφ (.lift (tryFrom_plain _))) fun _ => .bind (.same hφ (readBytes_plain _)) fun _ =>
      .bind (parse_narrows hp _ _ _) fun _ => .ite (.same hφ (.throwErr id)) (.ite (.same hφ (.throwErr id)) (.same hφ .pure)))
    (.ite (.same hφ .pure) (.same hφ (.throwErr id)))

theorem streamNext_narrows : Narrows φ (streamNextAt top b) (streamNext b) :=
  .bind (lfh_narrows hφ hp) fun e => by
    cases e with
    | none => exact .same hφ .pure
    | some e => exact .same hφ .pure

end

/-- Opening, as far as the directory. -/
def openHead (b : Build) : Rd (CombinedRecord × Bool × ZipString) := do
  let eocdrOffset ← locateEocdr
  let _ ← seekStart eocdrOffset
  let eocdr ← EndOfCentralDirectoryHeader.fromReader
  let comment ← readString eocdr.fileCommLength.toNat .utf8
  let (rec, zip64) ← readCombined b eocdrOffset eocdr
  if rec.diskNumber ≠ rec.diskNumberStartOfCd ∨ rec.numEntries ≠ rec.numEntriesOnDisk then
    throwErr (.featureNotSupported "Spanned/split files")
  else do
    let _ ← seekStart rec.offsetOfStart.toNat
    pure (rec, zip64, comment)

theorem openHead_plain (b : Build) : Plain (openHead b) :=
  .bind locateEocdr_plain fun _ => .bind (seekTo_plain _) fun _ => .bind (.bind (readExact_plain _) fun _ => .pure) fun _ =>
    .bind (.bind (readBytes_plain _) fun _ => .pure) fun _ => .bind (readCombined_plain _ _ _) fun _ =>
    .ite (.throwErr id) (.bind (seekTo_plain _) fun _ => .pure)

theorem bind_assoc_run {α β γ : Type} (m : Rd α) (f : α → Rd β) (g : β → Rd γ) (s : RState) :
    ((m >>= f) >>= g) s = (m >>= fun a => f a >>= g) s := by
  simp only [Bind.bind]
  rcases m s with ⟨e | a, s'⟩ <;> rfl

theorem bind_run {α β : Type} {m : Rd α} {f g : α → Rd β} {s : RState} (h : ∀ a s', f a s' = g a s') :
    (m >>= f) s = (m >>= g) s := by
  simp only [Bind.bind]
  rcases m s with ⟨e | a, s'⟩
  · rfl
  · exact h a s'

theorem openFile_head (b : Build) (cd : Nat → Rd (List StoredZipEntry)) (s : RState) :
    (do
      let eocdrOffset ← locateEocdr
      let _ ← seekStart eocdrOffset
      let eocdr ← EndOfCentralDirectoryHeader.fromReader
      let comment ← readString eocdr.fileCommLength.toNat .utf8
      let (rec, zip64) ← readCombined b eocdrOffset eocdr
      if rec.diskNumber ≠ rec.diskNumberStartOfCd ∨ rec.numEntries ≠ rec.numEntriesOnDisk then
        throwErr (.featureNotSupported "Spanned/split files")
      else do
        let _ ← seekStart rec.offsetOfStart.toNat
        let entries ← cd rec.numEntries.toNat
        pure { entries, zip64, comment } : Rd ZipFile) s =
    (do
      let (rec, zip64, comment) ← openHead b
      let entries ← cd rec.numEntries.toNat
      pure { entries, zip64, comment } : Rd ZipFile) s := by
  unfold openHead
  rw [bind_assoc_run]; refine bind_run fun o s1 => ?_
  rw [bind_assoc_run]; refine bind_run fun _ s2 => ?_
  rw [bind_assoc_run]; refine bind_run fun eo s3 => ?_
  rw [bind_assoc_run]; refine bind_run fun c s4 => ?_
  rw [bind_assoc_run]; refine bind_run fun r s5 => ?_
  obtain ⟨r, z⟩ := r
  simp only
  by_cases hc : r.diskNumber ≠ r.diskNumberStartOfCd ∨ r.numEntries ≠ r.numEntriesOnDisk
  · rw [if_pos hc, if_pos hc]; rfl
  · rw [if_neg hc, if_neg hc, bind_assoc_run]
    exact bind_run fun _ s6 => rfl

/-- What has been seen when the directory is reached. -/
theorem openHead_ok {b : Build} {s s' : RState} {r : CombinedRecord × Bool × ZipString} (h : openHead b s = (.ok r, s'))
    (hfit : ∀ j, LastEnd s.data j → HasLocator s.data j → zip64End s.data j + 4 < 2 ^ 64) :
    ∃ j, DeclaresMany r.1.numEntries.toNat s.data j ∧ r.1.numEntries.toNat = declaredEntries s.data j := by
  unfold openHead at h
  replace h := bind_ok_iff.1 h
  obtain ⟨off, s1, h1, h⟩ := h
  have k1 := (locateEocdr_keeps s).1
  rw [h1] at k1
  simp only at k1
  rcases locateEocdr_reach s s1 _ h1 with ⟨j, hr, ho, hl, hn⟩ | ⟨hr, _⟩ | hi
  · simp only [Except.ok.injEq] at hr
    subst hr
    have hj : LastEnd s.data j := ⟨ho, hl⟩
    replace h := bind_ok_iff.1 h
    obtain ⟨_, s2, h2, h⟩ := h
    obtain ⟨_, a2, a3⟩ := seekTo_ok h2
    replace h := bind_ok_iff.1 h
    obtain ⟨eo, s3, h3, h⟩ := h
    replace h3 := bind_ok_iff.1 h3
    obtain ⟨eb, s4, h4, h3⟩ := h3
    obtain ⟨b1, b2, b3, b4⟩ := readExact_ok h4
    simp only [pure_def, Prod.mk.injEq, Except.ok.injEq] at h3
    obtain ⟨rfl, rfl⟩ := h3
    rw [a2, a3, k1] at b1
    replace h := bind_ok_iff.1 h
    obtain ⟨cm, s5, h5, h⟩ := h
    replace h5 := bind_ok_iff.1 h5
    obtain ⟨cb, s6, h6, h5⟩ := h5
    obtain ⟨c1, c2, c3⟩ := readBytes_ok h6
    simp only [pure_def, Prod.mk.injEq, Except.ok.injEq] at h5
    obtain ⟨rfl, rfl⟩ := h5
    have hd6 : s6.data = s.data := by rw [c2, b3, a2, k1]
    have hlen : j + 22 ≤ s.data.length := by
      have := congrArg List.length b1
      rw [List.length_take, List.length_drop, b2] at this
      omega
    replace h := bind_ok_iff.1 h
    obtain ⟨⟨r', z⟩, s7, h7, h⟩ := h
    have hc := readCombined_ok h7 (by rw [hd6]; exact hfit j hj) (by rw [hd6]; exact hlen) (by rw [hd6, b1])
    rw [hd6] at hc
    obtain ⟨g1, g2, g3, g4, g5, g6, g7⟩ := hc
    simp only at h
    split at h
    · simp at h
    · rename_i hne
      obtain ⟨_, s8, h8, h⟩ := bind_ok_iff.1 h
      simp only [pure_def, Prod.mk.injEq, Except.ok.injEq] at h
      obtain ⟨rfl, rfl⟩ := h
      have e1 : r'.diskNumber = r'.diskNumberStartOfCd := Decidable.byContradiction fun h => hne (Or.inl h)
      have e2 : r'.numEntries = r'.numEntriesOnDisk := Decidable.byContradiction fun h => hne (Or.inr h)
      refine ⟨j, ⟨hj, hn, hlen, fun hl => ?_, ?_, ?_, Nat.le_of_eq g6⟩, g6⟩
      · have := readCombined_fits h7 (by rw [hd6]; exact hl) (by rw [hd6]; exact hfit j hj hl)
        rw [hd6] at this
        exact this
      · rw [← g3, ← g4, e1]
      · rw [← g6, ← g5, e2]
  · cases hr
  · exact absurd hi not_interrupted_ok

/-- There is only one reason to panic before the directory is reached. -/
theorem openHead_panic {b : Build} {s s' : RState} (h : openHead b s = (.error .panic, s')) :
    ∃ j, LastEnd s.data j ∧ HasLocator s.data j ∧ 2 ^ 64 ≤ zip64End s.data j + 4 := by
  unfold openHead at h
  replace h := bind_panic h locateEocdr_noPanic
  obtain ⟨off, s1, h1, h⟩ := h
  have k1 := (locateEocdr_keeps s).1
  rw [h1] at k1
  simp only at k1
  rcases locateEocdr_spec s s1 _ h1 with ⟨j, hr, ho, hl⟩ | ⟨hr, _⟩ | hi
  · simp only [Except.ok.injEq] at hr
    subst hr
    have hj : LastEnd s.data j := ⟨ho, hl⟩
    refine ⟨j, hj, ?_⟩
    replace h := bind_panic h (seekTo_noPanic _)
    obtain ⟨_, s2, h2, h⟩ := h
    obtain ⟨_, a2, a3⟩ := seekTo_ok h2
    replace h := bind_panic h (NoPanic.bind (readExact_noPanic _) fun _ => NoPanic.pure)
    obtain ⟨eo, s3, h3, h⟩ := h
    replace h3 := bind_ok_iff.1 h3
    obtain ⟨eb, s4, h4, h3⟩ := h3
    obtain ⟨b1, b2, b3, b4⟩ := readExact_ok h4
    simp only [pure_def, Prod.mk.injEq, Except.ok.injEq] at h3
    obtain ⟨rfl, rfl⟩ := h3
    replace h := bind_panic h (NoPanic.bind (readBytes_noPanic _) fun _ => NoPanic.pure)
    obtain ⟨cm, s5, h5, h⟩ := h
    replace h5 := bind_ok_iff.1 h5
    obtain ⟨cb, s6, h6, h5⟩ := h5
    obtain ⟨c1, c2, c3⟩ := readBytes_ok h6
    simp only [pure_def, Prod.mk.injEq, Except.ok.injEq] at h5
    obtain ⟨rfl, rfl⟩ := h5
    have hd6 : s6.data = s.data := by rw [c2, b3, a2, k1]
    rcases bind_error_iff.1 h with h | ⟨⟨r, z⟩, s7, h7, h⟩
    · obtain ⟨_, p2, p3⟩ := readCombined_panic h
      rw [hd6] at p2 p3
      exact ⟨p2, p3⟩
    · simp only at h
      split at h
      · simp at h
      · replace h := bind_panic h (seekTo_noPanic _)
        obtain ⟨_, s8, h8, h⟩ := h
        simp at h
  · cases hr
  · exact absurd hi not_interrupted_ok

/-- The two outcomes of opening: as on the other target up to `φ`, or there are too many entries. -/
theorem openFileAt_cases {top : Nat} {φ : Fail → Fail} {b : Build} (hφ : Leaves φ) (hpanic : φ .panic = .panic)
    (hp : Parses top φ b) (hb : b.maxVecEntries < top) (s : RState) :
    (openFileAt top b s = (mapFail φ (openFile b s).1, (openFile b s).2) ∧
      ∀ r s', openHead b s = (.ok r, s') → r.1.numEntries.toNat < top) ∨
    ∃ r s', openHead b s = (.ok r, s') ∧ top ≤ r.1.numEntries.toNat ∧ openFile b s = (.error .panic, s') ∧
      openFileAt top b s = (.error (.err .targetZip64NotSupported), s') := by
  have h1 : openFile b s = _ := openFile_head b (cd b) s
  have h2 : openFileAt top b s = _ := openFile_head b (cdAt top b) s
  rw [h1, h2]
  simp only [Bind.bind]
  rcases hh : openHead b s with ⟨e | ⟨r, z, c⟩, s'⟩
  · simp only
    exact Or.inl ⟨by simp only [mapFail, hφ e (openHead_plain b s e s' hh)], fun _ _ h => (by cases h)⟩
  · simp only
    by_cases hn : top ≤ r.numEntries.toNat
    · refine Or.inr ⟨_, _, rfl, hn, ?_, ?_⟩
      · unfold cd
        rw [if_pos (by omega)]
        rfl
      · unfold cdAt
        rw [if_pos hn]
        rfl
    · refine Or.inl ⟨?_, fun r' s'' h => by cases h; exact Nat.lt_of_not_le hn⟩
      unfold cd cdAt
      rw [if_neg hn]
      by_cases hm : r.numEntries.toNat > b.maxVecEntries
      · rw [if_pos hm, if_pos hm]
        simp only [Rd.fail, mapFail, hpanic]
      · rw [if_neg hm, if_neg hm, cdLoop_narrows hφ hp]
        rcases cdLoop b r.numEntries.toNat s' with ⟨e | es, s2⟩ <;> rfl

end AsyncZip
