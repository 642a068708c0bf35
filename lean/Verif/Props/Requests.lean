import Verif.Proofs.Requests
import Verif.Props.Bounds
/-!
# C66: the requests made of the source are bounded by the size of the file
-/

namespace AsyncZip
open Spec Rd

/-- C66, opening: whatever number of entries, lengths and offsets a file declares, and however few bytes at a time the source
answers with, opening makes at most two requests for every byte of the file and 133 290 more, whether it succeeds, fails or is
given up. -/
theorem C66_opening (b : Build) (s : RState) :
    (openFile b s).2.log.length ≤ s.log.length + (2 * s.data.length + 133290) := (openFile_asks b s).1

/-- C66, entries: getting at an entry's data takes at most 34 requests, whatever the listing and the file say. -/
theorem C66_entry (f : ZipFile) (i : Nat) (s : RState) : (readerWithEntry f i s).2.log.length ≤ s.log.length + 34 :=
  (readerWithEntry_asks f i s).1

/-- C66, data that are not compressed: reading them to their end takes at most one request for every byte of the file that is
left, and one more, whatever size was declared. -/
theorem C66_data (C : Codec) (size chunk : Nat) (s : RState) :
    ((EntryReader.new .stored size).readToEnd C chunk s).2.log.length ≤ s.log.length + ((s.data.length - s.pos) + 1) := by
  have h := (readLoop_pays C chunk _ (EntryReader.new .stored size) [] s rfl).log
  unfold EntryReader.readToEnd
  omega

theorem Pays.throwErr {α : Type} {e : ZipError} {s : RState} {k : Nat} : Pays (throwErr e : Rd α) s k :=
  (Spends.fail (k := k) (lo := 0) (hi := 0)).pays

theorem Pays.ite {α : Type} {c : Prop} [Decidable c] {m n : Rd α} {s : RState} {k : Nat} (h : Pays m s k) (g : Pays n s k) :
    Pays (if c then m else n) s k := by split <;> assumption

theorem readUpTo_pays (C : Codec) (chunk : Nat) : ∀ (fuel n : Nat) (er : EntryReader) (s : RState),
    Pays (readUpTo C chunk fuel n er) s 1
  | 0, _, _, _ => Pays.pure
  | fuel + 1, n, er, s => by
    unfold readUpTo
    refine Pays.ite Pays.pure ?_
    obtain ⟨hp, hp0⟩ := read_pays C er (min chunk n) s
    cases hr : er.read C (min chunk n) s with
    | mk r s1 =>
      cases r with
      | error e =>
        obtain ⟨h1, h2, h3⟩ := hp
        rw [hr] at h1 h2 h3
        have e1 := bind_of_error (f := fun x : Bytes × EntryReader => if x.1 = [] then pure ([], x.2) else do
          let y ← readUpTo C chunk fuel (n - x.1.length) x.2
          pure (x.1 ++ y.1, y.2)) hr
        constructor
        all_goals rw [e1]
        · exact h1
        · exact h2
        · exact h3
      | ok x =>
        by_cases hb : x.1 = []
        · exact Pays.bind (k := 1) (k' := 0) hp fun y s2 hy => by
            rw [hr] at hy
            cases hy
            rw [if_pos hb]
            exact Pays.pure
        · exact Pays.bind (k := 0) (k' := 1) (hp0 x.1 x.2 s1 hr hb) fun y s2 hy => by
            rw [if_neg (by rw [hr] at hy; cases hy; exact hb)]
            exact Pays.bind (k := 1) (k' := 0) (readUpTo_pays C chunk fuel _ _ _) fun _ _ _ => Pays.pure

theorem visit_pays (C : Codec) (b : Build) (v : Visit) (s : RState) : Pays (visit C b v) s 8 := by
  unfold visit
  refine Pays.bind (k := 4) (k' := 4) (streamNext_pays b s) fun r s1 _ => ?_
  cases r with
  | none => exact Pays.pure
  | some r =>
    cases v with
    | skip =>
      refine (Pays.bind (k := 3) (k' := 0) ?_ fun _ _ _ => Pays.pure).mono (by omega)
      exact Pays.bind (k := 1) (k' := 2) (readLoop_pays C 2048 _ _ _ _ rfl) fun _ s2 _ => descriptor_pays _ s2
    | read chunk =>
      refine Pays.bind (k := 1) (k' := 3) (readLoop_pays C chunk _ _ _ _ rfl) fun x s2 _ => ?_
      refine Pays.bind (k := 3) (k' := 0) ?_ fun _ _ _ => Pays.pure
      refine Pays.bind (k := 1) (k' := 2) (read_pays C x.2 1 s2).1 fun y s3 _ => ?_
      exact Pays.ite (Pays.throwErr) (descriptor_pays _ s3)
    | check chunk =>
      refine Pays.bind (k := 1) (k' := 3) (Pays.bind (k := 1) (k' := 0) (readLoop_pays C chunk _ _ _ _ rfl) fun x s2 _ =>
        Pays.ite Pays.pure Pays.throwErr) fun x s2 _ => ?_
      refine Pays.bind (k := 3) (k' := 0) ?_ fun _ _ _ => Pays.pure
      refine Pays.bind (k := 1) (k' := 2) (read_pays C x.2 1 s2).1 fun y s3 _ => ?_
      exact Pays.ite (Pays.throwErr) (descriptor_pays _ s3)
    | part n chunk =>
      refine Pays.bind (k := 1) (k' := 3) (readUpTo_pays C chunk n n _ _) fun x s2 _ => ?_
      refine Pays.bind (k := 3) (k' := 0) ?_ fun _ _ _ => Pays.pure
      exact Pays.bind (k := 1) (k' := 2) (readLoop_pays C 2048 _ _ _ _ rfl) fun _ s3 _ => descriptor_pays _ s3

theorem visits_pays (C : Codec) (b : Build) : ∀ (vs : List Visit) (s : RState),
    (visits C b vs s).2.log.length ≤
      s.log.length + 2 * (min (visits C b vs s).2.pos s.data.length - min s.pos s.data.length) + 8 ∧
    s.pos ≤ (visits C b vs s).2.pos
  | [], s => ⟨by show s.log.length ≤ _; omega, Nat.le_refl _⟩
  | v :: vs, s => by
    obtain ⟨h1, h2, h3⟩ := visit_pays C b v s
    cases hr : visit C b v s with
    | mk r s1 =>
      rw [hr] at h1 h2 h3
      simp only at h1 h2 h3
      cases r with
      | error e =>
        rw [show visits C b (v :: vs) s = (.error e, s1) from bind_of_error hr]
        exact ⟨by simp only; omega, h2⟩
      | ok x =>
        have e0 : visits C b (v :: vs) s = _ := bind_of_ok hr
        cases x with
        | none =>
          rw [e0]
          exact ⟨by show s1.log.length ≤ _ + 2 * (min s1.pos _ - _) + _; omega, h2⟩
        | some x =>
          obtain ⟨_, k2, k3⟩ := visit_bounded hr
          have k4 : 30 ≤ inBody x := by unfold inBody; omega
          obtain ⟨g1, g2⟩ := visits_pays C b vs s1
          have e1 : (visits C b (v :: vs) s).2 = (visits C b vs s1).2 := by
            rw [e0]
            simp only
            rw [bind_def]
            cases visits C b vs s1 with
            | mk r' s2 => cases r' <;> rfl
          rw [e1]
          rw [h1] at g1
          exact ⟨by omega, by omega⟩

/-- C66, streaming: whatever the file, the plan and the schedule, the client of the streaming reader causes at most two
requests for every byte of the file that is left and eight more, besides those of the decompressors, which the model does not
count. -/
theorem C66_streaming_partial (C : Codec) (b : Build) (vs : List Visit) (s : RState) :
    (visits C b vs s).2.log.length ≤ s.log.length + (2 * (s.data.length - s.pos) + 8) := by
  have h := (visits_pays C b vs s).1
  omega

/-- C66, concretely: a file of 98 bytes that declares 2^64-1 entries, to a build that could hold them. -/
example (rs : List RdResp) : (openFile ⟨false, 2 ^ 64⟩ ⟨Samples.huge, 0, some rs, []⟩).2.log.length ≤ 133486 := by
  have h := C66_opening ⟨false, 2 ^ 64⟩ ⟨Samples.huge, 0, some rs, []⟩
  have hl : Samples.huge.length = 98 := by decide +kernel
  simp only [hl, List.length_nil] at h
  omega

/-- The bounds are not idle: with the source handing out one byte at a time, the 41 bytes in front of the data of the entry in
`one` take 30 requests and two seeks. -/
example : (readerWithEntry Samples.oneFile 0 ⟨Samples.one, 0, some (List.replicate 40 (.chunk 0)), []⟩).2.log.length = 32 := by
  decide +kernel

end AsyncZip
