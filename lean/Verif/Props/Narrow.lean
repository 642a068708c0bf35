import Verif.Proofs.Narrow
import Verif.Props.Refused
import Verif.Props.Streaming
/-!
# C95: targets with a narrower `usize`

`top` is the number of values of `usize`; think of `2 ^ 32`. No target can allocate `top` entries.
-/

namespace AsyncZip
open Rd Spec

/-- C95. The same files open, with the same result, leaving the source in the same state. -/
theorem C95_opens {top : Nat} (hd : top ∣ 2 ^ 64) (ht : 2 ^ 17 ≤ top) (b : Build) (hb : b.maxVecEntries < top) (s s' : RState)
    (f : ZipFile) : openFileAt top b s = (.ok f, s') ↔ openFile b s = (.ok f, s') := by
  rcases openFileAt_cases (leaves_narrow top) rfl (parseExtraLoopAt_eq hd ht b) hb s with ⟨h, _⟩ | ⟨r, s1, _, _, h1, h2⟩
  · rw [h]
    rcases openFile b s with ⟨e | g, t⟩
    · constructor <;> (intro h; cases h)
    · rfl
  · rw [h1, h2]
    constructor <;> (intro h; cases h)

/-- C95. What does not open fails the same way, but for the number in one of the errors; or the panic has become an error. -/
theorem C95_failing {top : Nat} (hd : top ∣ 2 ^ 64) (ht : 2 ^ 17 ≤ top) (b : Build) (hb : b.maxVecEntries < top) (s s' : RState)
    (e : Fail) (h : openFile b s = (.error e, s')) :
    openFileAt top b s = (.error (narrow top e), s') ∨
    (e = .panic ∧ openFileAt top b s = (.error (.err .targetZip64NotSupported), s')) := by
  rcases openFileAt_cases (leaves_narrow top) rfl (parseExtraLoopAt_eq hd ht b) hb s with ⟨h1, _⟩ | ⟨r, s1, _, _, h1, h2⟩
  · rw [h1, h]; exact Or.inl rfl
  · rw [h] at h1
    cases h1
    exact Or.inr ⟨rfl, h2⟩

/-- On a 64-bit target this error does not occur. -/
theorem refused_not_target {checks : Bool} {most : Nat} {data : List UInt8} (h : Refused checks most data (.err .targetZip64NotSupported)) :
    False := by
  have x1 : ∀ {x e}, BadExtra checks x e → e ≠ .err .targetZip64NotSupported := by
    intro x e h
    induction h with
    | later _ _ _ _ _ ih => exact ih
    | _ => intro h; cases h
  have x2 : ∀ {off e}, BadRecord checks data off e → e ≠ .err .targetZip64NotSupported := by
    intro off e h
    cases h with
    | extra _ _ _ _ hx => exact x1 hx
    | _ => intro h; cases h
  have x3 : ∀ {off n e}, FirstBad checks data off n e → e ≠ .err .targetZip64NotSupported := by
    intro off n e h
    induction h with
    | here _ _ _ h => exact x2 h
    | later _ _ _ _ _ ih => exact ih
  cases h with
  | record j hl hn hc hz hd hw hm e h => exact x3 h rfl

/-- C95. The error is reported for exactly those files that are in order as far as the directory and declare `top` entries or more.
(`hfit` leaves out files whose ZIP64 locator points to the last bytes that a `u64` can count, as in C77.) -/
theorem C95_too_many {top : Nat} (hd : top ∣ 2 ^ 64) (ht : 2 ^ 17 ≤ top) (b : Build) (hb : b.maxVecEntries < top) (s : RState)
    (hlen : s.data.length < 2 ^ 64)
    (hfit : ∀ j, LastEnd s.data j → HasLocator s.data j → zip64End s.data j + 4 < 2 ^ 64) :
    Interrupted (openFileAt top b s).1 ∨
    ((openFileAt top b s).1 = .error (.err .targetZip64NotSupported) ↔ ∃ j, DeclaresMany top s.data j) := by
  rcases openFileAt_cases (leaves_narrow top) rfl (parseExtraLoopAt_eq hd ht b) hb s with ⟨h1, h2⟩ | ⟨r, s1, h0, h1, h2, h3⟩
  · have hc := C77_open_outcome b s hlen fun _ => hfit
    by_cases hi : Interrupted (openFileAt top b s).1
    · exact Or.inl hi
    have hi' : ¬ Interrupted (openFile b s).1 := by
      rw [h1] at hi
      simp only at hi
      rcases ho : openFile b s with ⟨e | f, t⟩
      · rw [ho] at hi
        intro hx
        have : narrow top e = e := by
          rcases hx with hx | ⟨c, hx⟩ <;> (cases hx; rfl)
        simp only [mapFail, this] at hi
        exact hi hx
      · exact not_interrupted_ok
    obtain ⟨_, hr⟩ := hc.resolve_left hi'
    refine Or.inr ⟨fun ht => ?_, fun ⟨j, hj⟩ => ?_⟩
    · exfalso
      rw [h1] at ht
      simp only at ht
      rcases hh : openHead b s with ⟨e | r, s'⟩
      · have : openFile b s = (.error e, s') := by
          rw [show openFile b s = _ from openFile_head b (cd b) s]
          simp only [Bind.bind, hh]
        rw [this] at ht
        simp only [mapFail, narrow_plain (openHead_plain b s e s' hh)] at ht
        cases ht
        exact openHead_plain b s _ s' hh trivial
      · rcases ho : openFile b s with ⟨e | f, t⟩
        · rw [ho] at ht
          simp only [mapFail, Except.error.injEq] at ht
          have : e = .err .targetZip64NotSupported := by
            unfold narrow at ht
            split at ht
            · cases ht
            · exact ht
          subst this
          exact refused_not_target ((hr _).1 (by rw [ho]))
        · rw [ho] at ht; cases ht
    · exfalso
      have hp := (hr .panic).2 (.tooMany j hj.last hj.near hj.complete hj.zip64 hj.disk hj.whole
        (Nat.lt_of_lt_of_le hb hj.many))
      rcases hh : openHead b s with ⟨e | r, s'⟩
      · have : openFile b s = (.error e, s') := by
          rw [show openFile b s = _ from openFile_head b (cd b) s]
          simp only [Bind.bind, hh]
        rw [this] at hp
        cases hp
        obtain ⟨j', k1, k2, k3⟩ := openHead_panic hh
        have := hfit j' k1 k2
        exact absurd k3 (Nat.not_le.2 this)
      · obtain ⟨j', k1, k2⟩ := openHead_ok hh hfit
        have : j' = j := Nat.le_antisymm (hj.last.2 j' k1.last.1) (k1.last.2 j hj.last.1)
        subst this
        have := h2 r s' hh
        rw [k2] at this
        exact absurd hj.many (Nat.not_le.2 this)
  · refine Or.inr ⟨fun _ => ?_, fun _ => by rw [h3]⟩
    obtain ⟨j, k1, k2⟩ := openHead_ok h0 hfit
    exact ⟨j, k1.last, k1.near, k1.complete, k1.zip64, k1.disk, k1.whole, by rw [← k2]; exact h1⟩

/-- C95. What remains: counts that fit a `usize`, but not the memory, still panic. -/
theorem C95_panics {top : Nat} (hd : top ∣ 2 ^ 64) (ht : 2 ^ 17 ≤ top) (b : Build) (hb : b.maxVecEntries < top) (s : RState)
    (hlen : s.data.length < 2 ^ 64)
    (hfit : ∀ j, LastEnd s.data j → HasLocator s.data j → zip64End s.data j + 4 < 2 ^ 64) {j : Nat}
    (h : DeclaresMany (b.maxVecEntries + 1) s.data j) (hs : declaredEntries s.data j < top) :
    Interrupted (openFileAt top b s).1 ∨ (openFileAt top b s).1 = .error .panic := by
  by_cases hi : Interrupted (openFileAt top b s).1
  · exact Or.inl hi
  right
  have ht' := (C95_too_many hd ht b hb s hlen hfit).resolve_left hi
  rcases C77_open_outcome b s hlen (fun _ => hfit) with hx | ⟨_, hr⟩
  · exfalso
    rcases ho : openFile b s with ⟨e | f, t⟩
    · rw [ho] at hx
      rcases C95_failing hd ht b hb s t e ho with h1 | ⟨rfl, _⟩
      · rw [h1] at hi
        rcases hx with hx | ⟨c, hx⟩ <;> cases hx
        · exact hi (Or.inl rfl)
        · exact hi (Or.inr ⟨c, rfl⟩)
      · rcases hx with hx | ⟨c, hx⟩ <;> cases hx
    · rw [ho] at hx
      exact not_interrupted_ok hx
  · have hp := (hr .panic).2 (.tooMany j h.last h.near h.complete h.zip64 h.disk h.whole h.many)
    rcases ho : openFile b s with ⟨r, t⟩
    rw [ho] at hp
    simp only at hp
    subst hp
    rcases C95_failing hd ht b hb s t .panic ho with h1 | ⟨_, h1⟩
    · rw [h1]; rfl
    · obtain ⟨j', hj'⟩ := ht'.1 (by rw [h1])
      have : j' = j := Nat.le_antisymm (h.last.2 j' hj'.last.1) (hj'.last.2 j h.last.1)
      subst this
      exact absurd hj'.many (Nat.not_le.2 hs)

/-- C95. The streaming reader differs in nothing but the number in that error. -/
theorem C95_streaming {top : Nat} (hd : top ∣ 2 ^ 64) (ht : 2 ^ 17 ≤ top) (b : Build) (s : RState) :
    (∀ r s', streamNext b s = (.ok r, s') → streamNextAt top b s = (.ok r, s')) ∧
    ∀ e s', streamNext b s = (.error e, s') → streamNextAt top b s = (.error (narrow top e), s') := by
  have h := streamNext_narrows (leaves_narrow top) (parseExtraLoopAt_eq hd ht b) s
  refine ⟨fun r s' h1 => ?_, fun e s' h1 => ?_⟩ <;> (rw [h, h1]; rfl)

/-- C95. With a `usize` of 64 bits, the functions for any target are those of the rest of the model. -/
theorem C95_wide (b : Build) (hb : b.maxVecEntries < 2 ^ 64) (s : RState) :
    openFileAt (2 ^ 64) b s = openFile b s ∧ streamNextAt (2 ^ 64) b s = streamNext b s := by
  have hp : Parses (2 ^ 64) id b := by
    intro us cs d
    have hid : ∀ r : Res (List ExtraField), mapFail id r = r := by intro r; cases r <;> rfl
    rw [hid]
    induction hn : d.length using Nat.strongRecOn generalizing d with
    | _ n ih =>
    rw [parseExtraLoopAt, parseExtraLoop]
    split
    · simp only []
      split
      · rfl
      · rw [ih (d.drop (4 + (fromLe16 (slice d 2 4)).toNat)).length (by rw [List.length_drop]; omega) _ rfl]
    · rfl
  have hl : Leaves id := fun _ _ => rfl
  constructor
  · rcases openFileAt_cases hl rfl hp hb s with ⟨h, _⟩ | ⟨r, _, _, h, _⟩
    · rw [h]
      rcases openFile b s with ⟨e | f, t⟩ <;> rfl
    · exact absurd r.1.numEntries.toNat_lt (Nat.not_lt.2 h)
  · rw [streamNext_narrows hl hp s]
    rcases streamNext b s with ⟨e | f, t⟩ <;> rfl

/-! ## On data, with 32 bits -/

/-- A file opens as ever. -/
example (b : Build) (hb : 1 ≤ b.maxVecEntries) (hb' : b.maxVecEntries < 2 ^ 32) :
    (openFileAt (2 ^ 32) b ⟨Samples.one, 0, none, []⟩).1 = .ok Samples.oneFile := by
  obtain ⟨l, h⟩ := Samples.one_opens b hb 0 []
  rw [(C95_opens (by decide) (by decide) b hb' _ _ _).2 h]

theorem huge_declares : DeclaresMany (2 ^ 64 - 1) Samples.huge 76 :=
  ⟨Samples.huge_end, by decide +kernel, by decide +kernel, fun _ => by decide +kernel, by decide +kernel, by decide +kernel,
    by rw [show declaredEntries Samples.huge 76 = 2 ^ 64 - 1 by decide +kernel]⟩

theorem huge_fits (j : Nat) (hj : LastEnd Samples.huge j) : zip64End Samples.huge j + 4 < 2 ^ 64 := by
  have : j = 76 := Nat.le_antisymm (Samples.huge_end.2 j hj.1) (hj.2 76 Samples.huge_end.1)
  subst this
  rw [show zip64End Samples.huge 76 = 0 by decide +kernel]
  decide

/-- A count of `2 ^ 64 - 1` is reported, where a 64-bit target panics. -/
example (b : Build) (hb : b.maxVecEntries < 2 ^ 32) (sched : Option (List RdResp)) :
    Interrupted (openFileAt (2 ^ 32) b ⟨Samples.huge, 0, sched, []⟩).1 ∨
    (openFileAt (2 ^ 32) b ⟨Samples.huge, 0, sched, []⟩).1 = .error (.err .targetZip64NotSupported) :=
  (C95_too_many (by decide) (by decide) b hb ⟨Samples.huge, 0, sched, []⟩ (show Samples.huge.length < 2 ^ 64 by decide +kernel)
    fun j hj _ => huge_fits j hj).imp_right fun h => h.2 ⟨76, huge_declares.last, huge_declares.near, huge_declares.complete,
      huge_declares.zip64, huge_declares.disk, huge_declares.whole, Nat.le_trans (by decide) huge_declares.many⟩

namespace Samples

/-- The same with a count of `2 ^ 31`. -/
def large : Bytes := [
    80, 75, 6, 6, 44, 0, 0, 0, 0, 0, 0, 0, 45, 0, 45, 0, 0, 0, 0, 0, 0, 0, 0, 0,
    0, 0, 0, 128, 0, 0, 0, 0, 0, 0, 0, 128, 0, 0, 0, 0, 0, 0, 0, 0, 0, 0, 0, 0,
    0, 0, 0, 0, 0, 0, 0, 0, 80, 75, 6, 7, 0, 0, 0, 0, 0, 0, 0, 0, 0, 0, 0, 0,
    1, 0, 0, 0, 80, 75, 5, 6, 0, 0, 0, 0, 255, 255, 255, 255, 0, 0, 0, 0, 0, 0, 0, 0,
    0, 0]

theorem large_end : LastEnd large 76 := lastEnd_of_decide (by unfold OccursAt; decide +kernel)

end Samples

/-- It panics on a 32-bit target as well: `2 ^ 31` entries do not fit in a 32-bit address space. -/
example (b : Build) (hb : b.maxVecEntries < 2 ^ 31) (sched : Option (List RdResp)) :
    Interrupted (openFileAt (2 ^ 32) b ⟨Samples.large, 0, sched, []⟩).1 ∨
    (openFileAt (2 ^ 32) b ⟨Samples.large, 0, sched, []⟩).1 = .error .panic := by
  have hd : declaredEntries Samples.large 76 = 2 ^ 31 := by decide +kernel
  refine C95_panics (by decide) (by decide) b (by omega) ⟨Samples.large, 0, sched, []⟩
    (show Samples.large.length < 2 ^ 64 by decide +kernel) (fun j hj _ => ?_) (j := 76)
    ⟨Samples.large_end, (by decide +kernel : Samples.large.length ≤ 76 + reach),
      (by decide +kernel : 76 + 22 ≤ Samples.large.length), fun _ => (by decide +kernel : zip64End Samples.large 76 + 56 ≤ Samples.large.length),
      (by decide +kernel : declaredDisk Samples.large 76 = declaredStartDisk Samples.large 76),
      (by decide +kernel : declaredEntries Samples.large 76 = declaredEntriesOnDisk Samples.large 76), ?_⟩ ?_
  · have : j = 76 := Nat.le_antisymm (Samples.large_end.2 j hj.1) (hj.2 76 Samples.large_end.1)
    subst this
    change zip64End Samples.large 76 + 4 < 2 ^ 64
    rw [show zip64End Samples.large 76 = 0 by decide +kernel]
    decide
  · change b.maxVecEntries + 1 ≤ declaredEntries Samples.large 76
    rw [hd]; exact hb
  · change declaredEntries Samples.large 76 < 2 ^ 32
    rw [hd]; decide

/-- The number in the error about an overlong extra field. -/
example (b : Build) (hc : b.overflowChecks = false) (hb : 1 ≤ b.maxVecEntries) (hb' : b.maxVecEntries < 2 ^ 32) (s : RState)
    (hs : s.data = Samples.overlong) (hi : ¬ Interrupted (openFile b s).1) :
    (openFileAt (2 ^ 32) b s).1 = .error (.err (.invalidExtraFieldHeader 200 (2 ^ 32 + 6 - 8 - 200))) := by
  have h := (C77_open_outcome b s (by rw [hs]; decide +kernel) ?_).resolve_left hi
  · have h1 := (h.2 _).2 (by rw [hs, hc]; exact (refused_samples false _ hb (Nat.lt_trans hb' (by decide))).2.1)
    rcases ho : openFile b s with ⟨r, t⟩
    rw [ho] at h1
    simp only at h1
    subst h1
    rcases C95_failing (by decide) (by decide) b hb' s t _ ho with h2 | ⟨h2, _⟩
    · rw [h2]; rfl
    · cases h2
  · intro _ j hj hl
    rw [hs] at hj hl
    have : j = 102 := Nat.le_antisymm (Samples.overlong_end.2 j hj.1) (hj.2 102 Samples.overlong_end.1)
    subst this
    exact absurd hl (by decide +kernel)

/-- A header in a stream. -/
example (b : Build) : ∃ r, (streamNextAt (2 ^ 32) b ⟨Samples.trailing, 0, none, []⟩).1 = .ok (some r) ∧
    r.entry.compression = .deflate := by
  obtain ⟨r, _, _, h1, _, _, h2⟩ := Samples.trailing_next b
  obtain ⟨l, h3⟩ := h2 []
  exact ⟨r, by rw [(C95_streaming (by decide) (by decide) b _).1 _ _ h3], h1⟩

end AsyncZip
