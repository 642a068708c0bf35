import Verif.Spec.Exchange
import Verif.Props.Robust
/-!
# C107: exchanging entry readers
-/

namespace AsyncZip
open Spec Rd

/-! ## `done` and `skip` -/

theorem Held.finish_owned (er : EntryReader) (s : RState) (dd : Bool) :
    Held.finish ⟨true, er, s⟩ dd = match (if dd then consumeDataDescriptor else pure ()) s with
      | (.ok _, s') => .ok s'
      | (.error e, _) => .error e := by
  cases dd with
  | false => rfl
  | true => rfl

/-- C107. Where nothing was exchanged, `done` and `skip` do what they do to a reader that cannot be exchanged. -/
theorem C107_plain (C : Codec) (r : Reading) (s : RState) :
    (Held.done C ⟨true, r.reader, s⟩ r.dataDescriptor = match r.done C s with
      | (.ok _, s') => .ok s'
      | (.error e, _) => .error e) ∧
    (Held.skip C ⟨true, r.reader, s⟩ r.dataDescriptor = match r.skip C s with
      | (.ok _, s') => .ok s'
      | (.error e, _) => .error e) := by
  constructor
  · unfold Held.done Reading.done
    cases hr : r.reader.read C 1 s with
    | mk x s1 =>
      cases x with
      | error e => rw [bind_of_error hr]
      | ok x =>
        obtain ⟨b, er⟩ := x
        rw [bind_of_ok hr]
        simp only
        by_cases hb : b.length ≠ 0
        · rw [if_pos hb, if_pos hb]; rfl
        · rw [if_neg hb, if_neg hb]
          exact Held.finish_owned er s1 r.dataDescriptor
  · unfold Held.skip Reading.skip
    cases hr : r.reader.readToEnd C 2048 s with
    | mk x s1 =>
      cases x with
      | error e => rw [bind_of_error hr]
      | ok x =>
        obtain ⟨b, er⟩ := x
        rw [bind_of_ok hr]
        exact Held.finish_owned er s1 r.dataDescriptor

theorem Held.finish_panic (h : Held) (dd : Bool) : h.finish dd = .error .panic ↔ h.owned = false := by
  obtain ⟨o, er, s⟩ := h
  cases o with
  | false => exact ⟨fun _ => rfl, fun _ => rfl⟩
  | true =>
    refine ⟨fun h => ?_, fun h => by cases h⟩
    rw [Held.finish_owned] at h
    have := NoPanic.ite (c := (dd = true)) consumeDataDescriptor_noPanic (NoPanic.pure (a := ())) s
    split at h
    · cases h
    · rename_i e s' hr
      rw [hr] at this
      cases h
      exact absurd rfl this

/-- C107. Leaving an entry panics exactly if the entry reader in the streaming reader borrows its source, and its data was read to the end
without an error. -/
theorem C107_panics_iff (C : Codec) (h : Held) (dd : Bool) :
    (h.done C dd = .error .panic ↔ h.owned = false ∧ ∃ er s, h.reader.read C 1 h.src = (.ok ([], er), s)) ∧
    (h.skip C dd = .error .panic ↔ h.owned = false ∧ ∃ b er s, h.reader.readToEnd C 2048 h.src = (.ok (b, er), s)) := by
  constructor
  · have := h.reader.read_noPanic C 1 h.src
    unfold Held.done
    cases hr : h.reader.read C 1 h.src with
    | mk x s1 =>
      rw [hr] at this
      cases x with
      | error e => exact ⟨fun h => absurd (by cases h; rfl) this, fun ⟨_, _, _, h⟩ => by cases h⟩
      | ok x =>
        obtain ⟨b, er⟩ := x
        simp only
        by_cases hb : b.length ≠ 0
        · rw [if_pos hb]
          exact ⟨fun h => (by cases h), fun ⟨_, _, _, h⟩ => (by cases h; exact absurd rfl hb)⟩
        · rw [if_neg hb, Held.finish_panic]
          have hb : b = [] := List.length_eq_zero_iff.1 (not_not.1 hb)
          subst hb
          exact ⟨fun h => ⟨h, er, s1, rfl⟩, fun h => h.1⟩
  · have := h.reader.readToEnd_noPanic C 2048 h.src
    unfold Held.skip
    cases hr : h.reader.readToEnd C 2048 h.src with
    | mk x s1 =>
      rw [hr] at this
      cases x with
      | error e => exact ⟨fun h => absurd (by cases h; rfl) this, fun ⟨_, _, _, _, h⟩ => by cases h⟩
      | ok x =>
        obtain ⟨b, er⟩ := x
        simp only [Held.finish_panic]
        exact ⟨fun h => ⟨h, b, er, s1, rfl⟩, fun h => h.1⟩

/-! ## Any number of readers -/

/-- The streaming readers own their sources. -/
def StreamsOwn (w : Bench) : Prop := ∀ k h dd, w k = .reading h dd → h.owned = true

theorem NoneBorrows.streams {w : Bench} (h : NoneBorrows w) : StreamsOwn w :=
  fun k x dd hk => h k x (by rw [hk]; rfl)

theorem benchLeft_panic {w : Bench} {k : Nat} {r : Res RState} (h : BenchPanic (benchLeft w k r).1) : r = .error .panic := by
  cases r with
  | ok s => exact h.elim
  | error e => exact congrArg Except.error (Option.some.inj h)

/-- One step from where the streaming readers own their sources. -/
theorem benchStep_panic (C : Codec) (b : Build) (op : BenchOp) {w : Bench} (hw : StreamsOwn w) (h : BenchPanic (benchStep C b op w).1) :
    AsksNext op ∧ b.overflowChecks = true := by
  cases op with
  | next k =>
    refine ⟨⟨k, rfl⟩, ?_⟩
    unfold benchStep at h
    simp only at h
    split at h
    · rename_i s hk
      split at h
      · exact h.elim
      · cases h
      · rename_i e s' hr
        cases Option.some.inj h
        exact (C50_streaming_partial b s (by rw [hr])).1
    · cases h
  | call k c =>
    unfold benchStep benchCall at h
    simp only at h
    split at h
    · cases h
    · exact absurd h (callReader_noPanic C _ c _)
  | done k =>
    unfold benchStep at h
    simp only at h
    split at h
    · rename_i x dd hk
      have := ((C107_panics_iff C x dd).1.1 (benchLeft_panic h)).1
      rw [hw k x dd hk] at this
      cases this
    · cases h
  | skip k =>
    unfold benchStep at h
    simp only at h
    split at h
    · rename_i x dd hk
      have := ((C107_panics_iff C x dd).2.1 (benchLeft_panic h)).1
      rw [hw k x dd hk] at this
      cases this
    · cases h
  | exchange j k =>
    unfold benchStep at h
    simp only at h
    split at h <;> cases h

theorem benchLeft_held {w : Bench} {k v : Nat} {r : Res RState} {x : Slot} (h : (benchLeft w k r).2 v = x) :
    x = w v ∨ x.held = none := by
  cases r with
  | ok s =>
    replace h : (if v = k then Slot.ready s else w v) = x := h
    split at h
    · exact .inr (h ▸ rfl)
    · exact .inl h.symm
  | error e =>
    replace h : (if v = k then Slot.gone else w v) = x := h
    split at h
    · exact .inr (h ▸ rfl)
    · exact .inl h.symm

/-- Where an entry reader comes from, and whether it is a streaming reader's: for every step but exchanges. -/
theorem benchStep_from (C : Codec) (b : Build) (op : BenchOp) (w : Bench) (hop : ¬Exchanges op) (v : Nat) (h : Held)
    (hv : ((benchStep C b op w).2 v).held = some h) :
    (∃ dd, (benchStep C b op w).2 v = .reading h dd ∧ h.owned = true) ∨
    ∃ h', (w v).held = some h' ∧ h'.owned = h.owned ∧ (benchStep C b op w).2 v = (w v).put h := by
  have stay : ∀ {w' : Bench}, (w' v).held = some h → w' v = w v → ∃ h', (w v).held = some h' ∧ h'.owned = h.owned ∧ w' v = (w v).put h := by
    intro w' h1 h2
    rw [h2] at h1 ⊢
    refine ⟨h, h1, rfl, ?_⟩
    cases hx : w v with
    | gone => rw [hx] at h1; cases h1
    | ready s => rw [hx] at h1; cases h1
    | reading x dd => rw [hx] at h1; cases h1; rfl
    | entry x => rw [hx] at h1; cases h1; rfl
  have put : ∀ {x : Slot} {y z : Held}, x.held = some y → (x.put z).held = some z := by
    intro x y z hx
    cases x with
    | gone => cases hx
    | ready s => cases hx
    | reading _ _ => rfl
    | entry _ => rfl
  cases op with
  | next k =>
    unfold benchStep at hv ⊢
    simp only at hv ⊢
    split at hv
    · rename_i s hk
      split at hv
      · by_cases hvk : v = k
        · simp only [Bench.set, if_pos hvk] at hv; cases hv
        · exact .inr (stay hv (by simp only [Bench.set, if_neg hvk]))
      · by_cases hvk : v = k
        · simp only [Bench.set, if_pos hvk] at hv ⊢
          cases hv
          exact .inl ⟨_, rfl, rfl⟩
        · exact .inr (stay hv (by simp only [Bench.set, if_neg hvk]))
      · by_cases hvk : v = k
        · simp only [Bench.set, if_pos hvk] at hv; cases hv
        · exact .inr (stay hv (by simp only [Bench.set, if_neg hvk]))
    · exact .inr (stay hv rfl)
  | call k c =>
    unfold benchStep benchCall at hv ⊢
    simp only at hv ⊢
    split at hv
    · exact .inr (stay hv rfl)
    · rename_i x hk
      by_cases hvk : v = k
      · subst hvk
        simp only [Bench.set, if_pos] at hv ⊢
        rw [put hk] at hv
        cases hv
        exact .inr ⟨x, hk, rfl, rfl⟩
      · exact .inr (stay hv (by simp only [Bench.set, if_neg hvk]))
  | done k =>
    unfold benchStep at hv ⊢
    simp only at hv ⊢
    split at hv
    · rcases benchLeft_held (x := _) rfl with h1 | h1
      · exact .inr (stay hv h1)
      · rw [h1] at hv; cases hv
    · exact .inr (stay hv rfl)
  | skip k =>
    unfold benchStep at hv ⊢
    simp only at hv ⊢
    split at hv
    · rcases benchLeft_held (x := _) rfl with h1 | h1
      · exact .inr (stay hv h1)
      · rw [h1] at hv; cases hv
    · exact .inr (stay hv rfl)
  | exchange j k => exact absurd ⟨j, k, rfl⟩ hop

theorem benchStep_own (C : Codec) (b : Build) (op : BenchOp) {w : Bench} (hop : ¬Exchanges op) (hw : StreamsOwn w) :
    StreamsOwn (benchStep C b op w).2 := by
  intro v h dd hv
  rcases benchStep_from C b op w hop v h (by rw [hv]; rfl) with ⟨_, _, h1⟩ | ⟨h', h1, h2, h3⟩
  · exact h1
  · rw [← h2]
    rw [hv] at h3
    cases hx : w v with
    | gone => rw [hx] at h1; cases h1
    | ready s => rw [hx] at h1; cases h1
    | reading x dd' =>
      rw [hx] at h1
      cases h1
      exact hw v _ dd' hx
    | entry x => rw [hx] at h3; cases h3

theorem benchStep_none (C : Codec) (b : Build) (op : BenchOp) {w : Bench} (hw : NoneBorrows w) : NoneBorrows (benchStep C b op w).2 := by
  intro v h hv
  by_cases hop : Exchanges op
  · obtain ⟨j, k, rfl⟩ := hop
    unfold benchStep at hv
    simp only at hv
    split at hv
    · rename_i hj hk ej ek
      have put : ∀ {x : Slot} {z : Held}, (x.put z).held = some h → z.owned = true → h.owned = true := by
        intro x z hx hz
        cases x with
        | gone => cases hx
        | ready s => cases hx
        | reading _ _ => cases hx; exact hz
        | entry _ => cases hx; exact hz
      by_cases hvk : v = k
      · simp only [Bench.set, if_pos hvk] at hv
        exact put hv (hw j _ ej)
      · simp only [Bench.set, if_neg hvk] at hv
        by_cases hvj : v = j
        · simp only [if_pos hvj] at hv
          exact put hv (hw k _ ek)
        · simp only [if_neg hvj] at hv
          exact hw v h hv
    · exact hw v h hv
  · rcases benchStep_from C b op w hop v h hv with ⟨_, _, h1⟩ | ⟨h', h1, h2, _⟩
    · exact h1
    · rw [← h2]; exact hw v h' h1

/-- C107. If no entry reader borrows its source (no seekable reader's is among them), no sequence of calls and exchanges panics, unless the
build has overflow checks and the call asks for the next entry (`C50_streaming_partial`). -/
theorem C107_owned (C : Codec) (b : Build) (ops : List BenchOp) (w : Bench) (hw : NoneBorrows w) :
    List.Forall₂ (fun op seen => BenchPanic seen → AsksNext op ∧ b.overflowChecks = true) ops (benchRun C b ops w).1 := by
  induction ops generalizing w with
  | nil => exact .nil
  | cons op ops ih => exact .cons (benchStep_panic C b op (NoneBorrows.streams hw)) (ih _ (benchStep_none C b op hw))

/-- C107. The same if there are entry readers that borrow, but no exchanges. -/
theorem C107_unexchanged (C : Codec) (b : Build) (ops : List BenchOp) (w : Bench) (hw : ∀ k h dd, w k = .reading h dd → h.owned = true)
    (hops : ∀ op ∈ ops, ¬Exchanges op) :
    List.Forall₂ (fun op seen => BenchPanic seen → AsksNext op ∧ b.overflowChecks = true) ops (benchRun C b ops w).1 := by
  induction ops generalizing w with
  | nil => exact .nil
  | cons op ops ih =>
    exact .cons (benchStep_panic C b op hw)
      (ih _ (benchStep_own C b op (hops op List.mem_cons_self) hw) fun o ho => hops o (List.mem_cons_of_mem _ ho))

/-! ## Exchanges between streaming readers -/

theorem Bench.set_moved {σ : Nat → Nat} (hσ : Function.Injective σ) (w : Bench) (k : Nat) (x : Slot) :
    (fun v => (w.set (σ k) x) (σ v)) = Bench.set (fun v => w (σ v)) k x := by
  funext v
  show (if σ v = σ k then x else w (σ v)) = if v = k then x else w (σ v)
  simp only [hσ.eq_iff]

/-- It does not matter in which places things are. -/
theorem benchStep_moved (C : Codec) (b : Build) {σ : Nat → Nat} (hσ : Function.Injective σ) (op : BenchOp) (w : Bench) :
    benchStep C b op (fun v => w (σ v)) =
      ((benchStep C b (movedOp σ op) w).1, fun v => (benchStep C b (movedOp σ op) w).2 (σ v)) := by
  have left : ∀ k r, benchLeft (fun v => w (σ v)) k r = ((benchLeft w (σ k) r).1, fun v => (benchLeft w (σ k) r).2 (σ v)) := by
    intro k r
    cases r with
    | ok s => exact congrArg (Prod.mk _) (Bench.set_moved hσ w k _).symm
    | error e => exact congrArg (Prod.mk _) (Bench.set_moved hσ w k _).symm
  cases op with
  | next k =>
    simp only [benchStep, movedOp]
    cases w (σ k) with
    | ready s =>
      simp only
      cases streamNext b s with
      | mk r s' =>
        cases r with
        | error e => exact congrArg (Prod.mk _) (Bench.set_moved hσ w k _).symm
        | ok r =>
          cases r with
          | none => exact congrArg (Prod.mk _) (Bench.set_moved hσ w k _).symm
          | some r => exact congrArg (Prod.mk _) (Bench.set_moved hσ w k _).symm
    | gone => rfl
    | reading h dd => rfl
    | entry h => rfl
  | call k c =>
    simp only [benchStep, movedOp, benchCall]
    cases (w (σ k)).held with
    | none => rfl
    | some h => exact congrArg (Prod.mk _) (Bench.set_moved hσ w k _).symm
  | done k =>
    simp only [benchStep, movedOp]
    cases w (σ k) with
    | reading h dd => exact left k _
    | ready s => rfl
    | gone => rfl
    | entry h => rfl
  | skip k =>
    simp only [benchStep, movedOp]
    cases w (σ k) with
    | reading h dd => exact left k _
    | ready s => rfl
    | gone => rfl
    | entry h => rfl
  | exchange j k =>
    simp only [benchStep, movedOp]
    cases (w (σ j)).held with
    | none => rfl
    | some hj =>
      cases (w (σ k)).held with
      | none => rfl
      | some hk =>
        simp only
        rw [Bench.set_moved hσ _ k, Bench.set_moved hσ w j]
        rfl

theorem benchRun_moved (C : Codec) (b : Build) {σ : Nat → Nat} (hσ : Function.Injective σ) (ops : List BenchOp) (w : Bench) :
    (benchRun C b ops (fun v => w (σ v))).1 = (benchRun C b (ops.map (movedOp σ)) w).1 := by
  induction ops generalizing w with
  | nil => rfl
  | cons op ops ih =>
    show (benchStep C b op _).1 :: (benchRun C b ops (benchStep C b op _).2).1 = (benchStep C b (movedOp σ op) w).1 :: _
    rw [benchStep_moved C b hσ]
    exact congrArg _ (ih _)

theorem traded_injective (j k : Nat) : Function.Injective (traded j k) := by
  intro a c h
  unfold traded at h
  split at h <;> split at h <;> (try split at h) <;> (try split at h) <;> omega

/-- C107. Exchanging the entry readers of two streaming readers, when the entries of both have data descriptors or those of neither, is
exchanging the streaming readers: whatever is done afterwards shows what it would have shown with the two in each other's place. -/
theorem C107_exchanged_partial (C : Codec) (b : Build) (w : Bench) (j k : Nat) (hj hk : Held) (dd : Bool)
    (wj : w j = .reading hj dd) (wk : w k = .reading hk dd) (ops : List BenchOp) :
    (benchRun C b (.exchange j k :: ops) w).1 = .seen .nothing :: (benchRun C b (ops.map (movedOp (traded j k))) w).1 := by
  rw [← benchRun_moved C b (traded_injective j k)]
  have : benchStep C b (.exchange j k) w = (.seen .nothing, fun v => w (traded j k v)) := by
    simp only [benchStep, wj, wk, Slot.held, Slot.put]
    refine congrArg (Prod.mk _) ?_
    funext v
    simp only [Bench.set, traded]
    by_cases h1 : v = k
    · subst h1
      rw [if_pos rfl]
      by_cases h2 : v = j
      · subst h2
        rw [if_pos rfl, wk]
        rw [wk] at wj; cases wj; rfl
      · rw [if_neg h2, if_pos rfl, wj]
    · rw [if_neg h1]
      by_cases h2 : v = j
      · rw [if_pos h2, if_pos h2, wk]
      · rw [if_neg h2, if_neg h2, if_neg h1]
  show (benchStep C b (.exchange j k) w).1 :: (benchRun C b ops (benchStep C b (.exchange j k) w).2).1 = _
  rw [this]

/-! ## What goes wrong -/

/-- The entry reader that a seekable reader lends for the entry of the sample archive. -/
def Samples.lent : Held := ⟨false, EntryReader.new .stored 2, (callOpen Samples.oneFile 0 ⟨Samples.one, 0, none, []⟩).2.2⟩

/-- An entry with a data descriptor, and the signature of the directory after it. -/
def Samples.describedStream : Bytes :=
  sigLocal ++ [20, 0, 8, 0, 8, 0, 0, 0, 0, 0, 0, 0, 0, 0, 0, 0, 0, 0, 0, 0, 0, 0, 1, 0, 0, 0] ++ [97] ++ [2, 104, 105]
    ++ [80, 75, 7, 8, 172, 42, 147, 216, 3, 0, 0, 0, 2, 0, 0, 0] ++ sigCentral

/-- Two streaming readers, and an entry reader of a seekable one. -/
def Samples.bench : Bench
  | 0 => .ready ⟨Samples.one, 0, none, []⟩
  | 1 => .ready ⟨Samples.describedStream, 0, none, []⟩
  | 2 => .entry Samples.lent
  | 3 => .ready ⟨Samples.one, 0, none, []⟩
  | _ => .gone

theorem Samples.lent_open : ((callOpen Samples.oneFile 0 ⟨Samples.one, 0, none, []⟩).2.1.map fun r => (r.compression, r.limit)) =
    some (Samples.lent.reader.compression, Samples.lent.reader.limit) := by decide +kernel

/-- The client reads the entry of a streaming reader to its end and leaves it, after having exchanged the entry reader for another
one. -/
def Samples.exchanging : List BenchOp := [.next 0, .exchange 0 2, .call 0 (.read 9), .call 2 (.read 9), .done 0]

/-- C107 in full does not hold: with the entry reader of a seekable reader in the place of the streaming reader's, leaving the entry
panics in every build, with all data read and without any error before. -/
theorem C107_borrowed_fails : (benchRun Samples.lengthCodec Samples.build Samples.exchanging Samples.bench).1.drop 1 =
    [.seen .nothing, .seen (.bytes [104, 105]), .seen (.bytes [104, 105]), .seen (.failed .panic)] := by decide +kernel

/-- C107 in full does not hold: with the entry readers of two streaming readers exchanged, one of an entry with a data descriptor and one
of an entry without, both are left without an error, but the readers do not find what comes next. Not exchanged, they come to the end of
the entries. -/
theorem C107_descriptor_fails :
    (benchRun Samples.lengthCodec Samples.build [.next 0, .next 1, .call 0 (.read 9), .call 1 (.read 9), .done 0, .done 1, .next 0, .next 1]
      Samples.bench).1.drop 2 = [.seen (.bytes [104, 105]), .seen (.bytes [104, 105]), .ready, .ready, .last, .last] ∧
    (benchRun Samples.lengthCodec Samples.build
      [.next 0, .next 1, .exchange 0 1, .call 0 (.read 9), .call 1 (.read 9), .done 0, .done 1, .next 0, .next 1] Samples.bench).1.drop 3 =
      [.seen (.bytes [104, 105]), .seen (.bytes [104, 105]), .ready, .ready,
        .seen (.failed (.err (.unexpectedHeaderError 0x08074b50 0x04034b50))),
        .seen (.failed (.err (.unexpectedHeaderError 0x50221883 0x04034b50)))] := by
  constructor <;> decide +kernel

/-! ## The theorems on the sample -/

/-- C107, the theorems about `done` and `skip`: the lent entry reader has two bytes left, so leaving is refused, not a panic. -/
example : Samples.lent.done Samples.lengthCodec false ≠ .error .panic ∧ Samples.lent.owned = false :=
  And.intro (fun h => by
    obtain ⟨_, er, s, h⟩ := (C107_panics_iff Samples.lengthCodec Samples.lent false).1.1 h
    have : ((Samples.lent.reader.read Samples.lengthCodec 1 Samples.lent.src).1.toOption.map fun x => x.1) = some [104] := by
      decide +kernel
    rw [h] at this
    cases this) rfl

/-- C107, unexchanged: the sample's readers, without exchanges. -/
example (C : Codec) (b : Build) (ops : List BenchOp) (h : ∀ op ∈ ops, ¬Exchanges op) :
    List.Forall₂ (fun op seen => BenchPanic seen → AsksNext op ∧ b.overflowChecks = true) ops (benchRun C b ops Samples.bench).1 := by
  refine C107_unexchanged C b ops Samples.bench (fun k x dd hk => ?_) h
  unfold Samples.bench at hk
  split at hk <;> cases hk

/-- C107, owned: the same without the one that is lent, with any exchanges. -/
example (C : Codec) (b : Build) (ops : List BenchOp) :
    List.Forall₂ (fun op seen => BenchPanic seen → AsksNext op ∧ b.overflowChecks = true) ops
      (benchRun C b ops (Samples.bench.set 2 .gone)).1 := by
  refine C107_owned C b ops _ fun k x hk => ?_
  unfold Bench.set at hk
  split at hk
  · cases hk
  · unfold Samples.bench at hk
    split at hk
    · cases hk
    · cases hk
    · contradiction
    · cases hk
    · cases hk

/-- C107, exchanged: two readers of the same archive, one of which has read a byte more. -/
example : ∃ (w : Bench) (hj hk : Held), w 0 = .reading hj false ∧ w 3 = .reading hk false ∧
    (benchRun Samples.lengthCodec Samples.build [.exchange 0 3, .call 0 (.read 9), .call 3 (.read 9), .done 0, .next 0] w).1 =
      [.seen .nothing, .seen (.bytes [104, 105]), .seen (.bytes [105]), .ready, .last] ∧
    (benchRun Samples.lengthCodec Samples.build [.call 3 (.read 9), .call 0 (.read 9), .done 3, .next 3] w).1 =
      [.seen (.bytes [104, 105]), .seen (.bytes [105]), .ready, .last] := by
  have flag : ∀ x : Slot, (match x with | .reading _ dd => some dd | _ => none) = some false → ∃ h, x = .reading h false := by
    intro x hx
    cases x with
    | reading h dd => cases hx; exact ⟨h, rfl⟩
    | gone => cases hx
    | ready s => cases hx
    | entry h => cases hx
  have h : ∃ hj hk, (benchRun Samples.lengthCodec Samples.build [.next 0, .next 3, .call 0 (.read 1)] Samples.bench).2 0 = .reading hj false ∧
      (benchRun Samples.lengthCodec Samples.build [.next 0, .next 3, .call 0 (.read 1)] Samples.bench).2 3 = .reading hk false :=
    let ⟨hj, h0⟩ := flag _ (by decide +kernel)
    let ⟨hk, h3⟩ := flag _ (by decide +kernel)
    ⟨hj, hk, h0, h3⟩
  obtain ⟨hj, hk, h0, h3⟩ := h
  have hr : (benchRun Samples.lengthCodec Samples.build [.call 3 (.read 9), .call 0 (.read 9), .done 3, .next 3]
      (benchRun Samples.lengthCodec Samples.build [.next 0, .next 3, .call 0 (.read 1)] Samples.bench).2).1 =
      [.seen (.bytes [104, 105]), .seen (.bytes [105]), .ready, .last] := by decide +kernel
  refine ⟨_, hj, hk, h0, h3, ?_, hr⟩
  rw [C107_exchanged_partial _ _ _ 0 3 hj hk false h0 h3]
  exact congrArg _ hr

end AsyncZip
