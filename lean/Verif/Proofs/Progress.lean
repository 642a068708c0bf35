import Verif.Proofs.Open
/-!
# A source that keeps answering lets every call complete
-/

namespace AsyncZip
open Spec Rd

/-- With a source that answers every poll with up to `c + 1` bytes, the call completes within `k` answers. -/
def Completes {α : Type} (m : Rd α) : Prop :=
  ∀ (c : Nat) (data : Bytes) (pos : Nat), ∃ (k : Nat) (r : Res α) (pos' : Nat), ¬ Interrupted r ∧
    ∀ (n : Nat) (log : List RdEvent), ∃ log', m ⟨data, pos, some (List.replicate (k + n) (.chunk c)), log⟩
      = (r, ⟨data, pos', some (List.replicate n (.chunk c)), log'⟩)

theorem Completes.pure {α : Type} {a : α} : Completes (pure a : Rd α) :=
  fun _ _ pos => ⟨0, .ok a, pos, not_interrupted_ok, fun n log => ⟨log, by rw [Nat.zero_add]; rfl⟩⟩

/-- The failure is one the crate itself reports. -/
def OwnFailure : Fail → Prop
  | .err (.upstreamReadError (.other _)) => False
  | .cancelled => False
  | _ => True

theorem not_interrupted_own {α : Type} {e : Fail} (h : OwnFailure e) : ¬ Interrupted (.error e : Res α) := by
  rintro (h' | ⟨c, h'⟩) <;> cases h' <;> exact h

theorem Completes.fail {α : Type} {e : Fail} (h : OwnFailure e) : Completes (fail e : Rd α) :=
  fun _ _ pos => ⟨0, .error e, pos, not_interrupted_own h, fun n log => ⟨log, by rw [Nat.zero_add]; rfl⟩⟩

theorem Completes.lift {α : Type} {r : Res α} (h : ¬ Interrupted r) : Completes (lift r) :=
  fun _ _ pos => ⟨0, r, pos, h, fun n log => ⟨log, by rw [Nat.zero_add]; rfl⟩⟩

theorem Completes.bind {α β : Type} {m : Rd α} {f : α → Rd β} (hm : Completes m) (hf : ∀ a, Completes (f a)) :
    Completes (m >>= f) := by
  intro c data pos
  obtain ⟨k, r, p1, hr, h⟩ := hm c data pos
  cases r with
  | error e =>
    refine ⟨k, .error e, p1, fun hi => hr (interrupted_cast hi), fun n log => ?_⟩
    obtain ⟨l, e'⟩ := h n log
    exact ⟨l, by rw [bind_of_error e']⟩
  | ok a =>
    obtain ⟨k2, r2, p2, hr2, h2⟩ := hf a c data p1
    refine ⟨k + k2, r2, p2, hr2, fun n log => ?_⟩
    obtain ⟨l, e'⟩ := h (k2 + n) log
    obtain ⟨l2, e2⟩ := h2 n l
    exact ⟨l2, by rw [Nat.add_assoc, bind_of_ok e', e2]⟩

theorem Completes.ite {α : Type} {p : Prop} [Decidable p] {m m' : Rd α} (h : Completes m) (h' : Completes m') :
    Completes (if p then m else m') := by
  split <;> assumption

theorem readOnce_completes (n : Nat) : Completes (readOnce n) := by
  intro c data pos
  refine ⟨1, .ok ((data.drop pos).take (min n (c + 1))), pos + ((data.drop pos).take (min n (c + 1))).length,
    not_interrupted_ok, fun r log => ⟨log ++ [.read pos n], ?_⟩⟩
  rw [Nat.add_comm, List.replicate_succ]
  rfl

theorem seekTo_completes (t : Nat) : Completes (seekTo t) := by
  intro c data pos
  refine ⟨1, .ok t, t, not_interrupted_ok, fun r log => ⟨log ++ [.seek t], ?_⟩⟩
  rw [Nat.add_comm, List.replicate_succ]
  rfl

theorem seekEnd_completes : Completes seekEnd := fun c data pos => seekTo_completes data.length c data pos
theorem seekForward_completes (d : Nat) : Completes (seekForward d) := fun c data pos => seekTo_completes (pos + d) c data pos

theorem readUpToLoop_completes (need : Nat) : ∀ acc, Completes (readUpToLoop need acc) := by
  induction need using Nat.strongRecOn with
  | ind need ih =>
    intro acc
    unfold readUpToLoop
    split
    · exact Completes.pure
    · refine Completes.bind (readOnce_completes _) fun b => ?_
      split
      · exact Completes.pure
      · exact ih _ (by omega) _

theorem readExactLoop_completes (need : Nat) : ∀ acc, Completes (readExactLoop need acc) := by
  induction need using Nat.strongRecOn with
  | ind need ih =>
    intro acc
    unfold readExactLoop
    split
    · exact Completes.pure
    · refine Completes.bind (readOnce_completes _) fun b => ?_
      split
      · exact Completes.fail trivial
      · exact ih _ (by omega) _

theorem readExact_completes (n : Nat) : Completes (readExact n) := readExactLoop_completes n []
theorem readBytes_completes (n : Nat) : Completes (readBytes n) := readUpToLoop_completes n []

theorem eocdrLoop_completes (length position : Nat) : Completes (eocdrLoop length position) := by
  induction position using Nat.strongRecOn with
  | ind position ih =>
    unfold eocdrLoop
    refine Completes.bind (readUpToLoop_completes _ _) fun buffer => ?_
    split
    · exact Completes.pure
    · split
      · exact Completes.fail trivial
      · refine Completes.bind (seekTo_completes _) fun _ => ih _ ?_
        rw [show BUFFER_SIZE - SIGNATURE_LENGTH = 2044 by decide]
        omega

theorem locateEocdr_completes : Completes locateEocdr :=
  Completes.bind seekEnd_completes fun _ => Completes.bind (seekTo_completes _) fun _ => eocdrLoop_completes _ _

theorem assertSignature_completes (e : UInt32) : Completes (assertSignature e) :=
  Completes.bind (readExact_completes _) fun _ => Completes.ite Completes.pure (Completes.fail trivial)

theorem tryFrom_not_interrupted (v : UInt16) : ¬ Interrupted (Compression.tryFrom v) := by
  unfold Compression.tryFrom
  repeat' split
  all_goals rintro (h | ⟨c, h⟩) <;> cases h

theorem own_bind {α β : Type} {x : Res α} {f : α → Res β} (hx : ¬ Interrupted x) (hf : ∀ a, ¬ Interrupted (f a)) :
    ¬ Interrupted (x >>= f) := by
  cases x with
  | ok a => exact hf a
  | error e => exact fun h => hx (interrupted_cast h)

theorem sliceChecked_own (data : Bytes) (i j : Nat) : ¬ Interrupted (sliceChecked data i j) := by
  unfold sliceChecked
  split
  · exact not_interrupted_ok
  · exact not_interrupted_own trivial

theorem infoZip_own (size : UInt16) (data : Bytes) (e : ZipError) (he : OwnFailure (.err e)) :
    ¬ Interrupted (infoZipFromBytes e size data) := by
  unfold infoZipFromBytes
  split
  · exact not_interrupted_own he
  · split
    · split
      · exact not_interrupted_own he
      · exact own_bind (sliceChecked_own _ _ _) fun _ => not_interrupted_ok
    · exact own_bind (sliceChecked_own _ _ _) fun _ => not_interrupted_ok

theorem extraField_own (id sz : UInt16) (data : Bytes) (us cs : UInt32) :
    ¬ Interrupted (extraFieldFromBytes id sz data us cs) := by
  unfold extraFieldFromBytes
  repeat' split
  · exact not_interrupted_ok
  · exact own_bind (infoZip_own _ _ _ trivial) fun _ => not_interrupted_ok
  · exact own_bind (infoZip_own _ _ _ trivial) fun _ => not_interrupted_ok
  · exact not_interrupted_ok

/-- A failure of the extra field parser is its own, never an I/O error. -/
theorem parseExtra_own (b : Build) (us cs : UInt32) (n : Nat) : ∀ data : Bytes, data.length = n →
    ¬ Interrupted (parseExtraLoop b us cs data) := by
  induction n using Nat.strongRecOn with
  | ind n ih =>
    intro data hn
    unfold parseExtraLoop
    split
    · simp only []
      split
      · refine own_bind ?_ fun _ => not_interrupted_own trivial
        unfold extraRemaining
        repeat' split
        all_goals first | exact not_interrupted_ok | exact not_interrupted_own trivial
      · refine own_bind (extraField_own _ _ _ _ _) fun _ => own_bind (ih _ ?_ _ rfl) fun _ => not_interrupted_ok
        rw [List.length_drop]
        omega
    · exact not_interrupted_ok

theorem cdRecord_completes (b : Build) : Completes (cdRecord b) := by
  unfold cdRecord
  refine Completes.bind (assertSignature_completes _) fun _ =>
    Completes.bind (Completes.bind (readExact_completes _) fun _ => Completes.pure) fun _ =>
    Completes.bind (readBytes_completes _) fun _ => Completes.bind (Completes.lift (tryFrom_not_interrupted _)) fun _ =>
    Completes.bind (readBytes_completes _) fun _ =>
    Completes.bind (Completes.lift (parseExtra_own _ _ _ _ _ rfl)) fun _ =>
    Completes.bind (readBytes_completes _) fun _ => Completes.pure

theorem cdLoop_completes (b : Build) (n : Nat) : Completes (cdLoop b n) := by
  induction n with
  | zero => exact Completes.pure
  | succ n ih => exact Completes.bind (cdRecord_completes b) fun _ => Completes.bind ih fun _ => Completes.pure

theorem readCombined_completes (b : Build) (off : Nat) (e : EndOfCentralDirectoryHeader) :
    Completes (readCombined b off e) := by
  unfold readCombined
  refine Completes.ite Completes.pure (Completes.bind (seekTo_completes _) fun _ => Completes.bind ?_ fun l => ?_)
  · exact Completes.bind (readExact_completes _) fun _ => Completes.ite Completes.pure
      (Completes.bind (readExact_completes _) fun _ => Completes.pure)
  · split
    · refine Completes.bind (Completes.lift ?_) fun _ => Completes.bind (seekTo_completes _) fun _ =>
        Completes.bind (Completes.bind (readExact_completes _) fun _ => Completes.pure) fun _ => Completes.pure
      unfold addU64
      repeat' split
      all_goals first | exact not_interrupted_ok | exact not_interrupted_own trivial
    · exact Completes.pure

theorem openFile_completes (b : Build) : Completes (openFile b) := by
  unfold openFile
  refine Completes.bind locateEocdr_completes fun _ => Completes.bind (seekTo_completes _) fun _ =>
    Completes.bind (Completes.bind (readExact_completes _) fun _ => Completes.pure) fun _ =>
    Completes.bind (Completes.bind (readBytes_completes _) fun _ => Completes.pure) fun _ =>
    Completes.bind (readCombined_completes b _ _) fun x => ?_
  obtain ⟨r, z⟩ := x
  refine Completes.ite (Completes.fail trivial) (Completes.bind (seekTo_completes _) fun _ =>
    Completes.bind ?_ fun _ => Completes.pure)
  exact Completes.ite (Completes.fail trivial) (cdLoop_completes b _)

theorem lfh_completes (b : Build) : Completes (lfh b) := by
  unfold lfh
  refine Completes.bind (readExact_completes _) fun _ => Completes.ite ?_
    (Completes.ite Completes.pure (Completes.fail trivial))
  refine Completes.bind (Completes.bind (readExact_completes _) fun _ => Completes.pure) fun _ =>
    Completes.bind (readBytes_completes _) fun _ => Completes.bind (Completes.lift (tryFrom_not_interrupted _)) fun _ =>
    Completes.bind (readBytes_completes _) fun _ =>
    Completes.bind (Completes.lift (parseExtra_own _ _ _ _ _ rfl)) fun _ =>
    Completes.ite (Completes.fail trivial) (Completes.ite (Completes.fail trivial) Completes.pure)

theorem seekToDataOffset_completes (e : StoredZipEntry) : Completes (seekToDataOffset e) := by
  unfold seekToDataOffset
  exact Completes.bind (seekTo_completes _) fun _ => Completes.bind (readExact_completes _) fun _ =>
    Completes.ite (Completes.bind (Completes.bind (readExact_completes _) fun _ => Completes.pure) fun _ =>
      Completes.bind (seekForward_completes _) fun _ => Completes.pure) (Completes.fail trivial)

end AsyncZip
