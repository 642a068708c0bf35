import Verif.Proofs.Locator
import Verif.Model.EntryReader
/-!
# Opening: schedules, runs on the ideal source, panics
-/

namespace AsyncZip
open Spec Rd

/-! ## Schedules -/

theorem ChunkIndep.match_option {α β : Type} {o : Option α} {f : α → Rd β} {g : Rd β}
    (hf : ∀ a, ChunkIndep (f a)) (hg : ChunkIndep g) :
    ChunkIndep (match o with | some a => f a | none => g) := by
  cases o
  · exact hg
  · exact hf _

theorem eocdrLoop_chunkIndep (length : Nat) (position : Nat) : ChunkIndep (eocdrLoop length position) := by
  induction position using Nat.strongRecOn with
  | ind position ih =>
    unfold eocdrLoop
    refine ChunkIndep.bind (readUpToLoop_chunkIndep _ _) fun buffer => ?_
    split
    · exact ChunkIndep.pure _
    · split
      · exact ChunkIndep.throwErr _
      · rename_i hgo
        refine ChunkIndep.bind (seekTo_chunkIndep _) fun _ => ih _ ?_
        rw [show BUFFER_SIZE - SIGNATURE_LENGTH = 2044 by decide]
        omega

theorem locateEocdr_chunkIndep : ChunkIndep locateEocdr :=
  ChunkIndep.bind seekEnd_chunkIndep fun _ => ChunkIndep.bind (seekTo_chunkIndep _) fun _ => eocdrLoop_chunkIndep _ _

theorem assertSignature_chunkIndep (e : UInt32) : ChunkIndep (assertSignature e) :=
  ChunkIndep.bind (readExact_chunkIndep _) fun _ => ChunkIndep.ite (ChunkIndep.pure _) (ChunkIndep.throwErr _)

theorem cdRecord_chunkIndep (b : Build) : ChunkIndep (cdRecord b) := by
  unfold cdRecord
  refine ChunkIndep.bind (assertSignature_chunkIndep _) fun _ =>
    ChunkIndep.bind (ChunkIndep.bind (readExact_chunkIndep _) fun _ => ChunkIndep.pure _) fun _ =>
    ChunkIndep.bind (readBytes_chunkIndep _) fun _ => ChunkIndep.bind (ChunkIndep.lift _) fun _ =>
    ChunkIndep.bind (readBytes_chunkIndep _) fun _ => ChunkIndep.bind (ChunkIndep.lift _) fun _ =>
    ChunkIndep.bind (readBytes_chunkIndep _) fun _ => ChunkIndep.pure _

theorem cdLoop_chunkIndep (b : Build) (n : Nat) : ChunkIndep (cdLoop b n) := by
  induction n with
  | zero => exact ChunkIndep.pure _
  | succ n ih =>
    exact ChunkIndep.bind (cdRecord_chunkIndep b) fun _ => ChunkIndep.bind ih fun _ => ChunkIndep.pure _

theorem readCombined_chunkIndep (b : Build) (off : Nat) (e : EndOfCentralDirectoryHeader) :
    ChunkIndep (readCombined b off e) := by
  unfold readCombined
  refine ChunkIndep.ite (ChunkIndep.pure _) (ChunkIndep.bind (seekTo_chunkIndep _) fun _ => ChunkIndep.bind ?_ fun l => ?_)
  · exact ChunkIndep.bind (readExact_chunkIndep _) fun _ => ChunkIndep.ite (ChunkIndep.pure _)
      (ChunkIndep.bind (readExact_chunkIndep _) fun _ => ChunkIndep.pure _)
  · split
    · exact ChunkIndep.bind (ChunkIndep.lift _) fun _ => ChunkIndep.bind (seekTo_chunkIndep _) fun _ =>
        ChunkIndep.bind (ChunkIndep.bind (readExact_chunkIndep _) fun _ => ChunkIndep.pure _) fun _ => ChunkIndep.pure _
    · exact ChunkIndep.pure _

theorem openFile_chunkIndep (b : Build) : ChunkIndep (openFile b) := by
  unfold openFile
  refine ChunkIndep.bind locateEocdr_chunkIndep fun _ => ChunkIndep.bind (seekTo_chunkIndep _) fun _ =>
    ChunkIndep.bind (ChunkIndep.bind (readExact_chunkIndep _) fun _ => ChunkIndep.pure _) fun _ =>
    ChunkIndep.bind (ChunkIndep.bind (readBytes_chunkIndep _) fun _ => ChunkIndep.pure _) fun _ =>
    ChunkIndep.bind (readCombined_chunkIndep b _ _) fun x => ?_
  obtain ⟨r, z⟩ := x
  refine ChunkIndep.ite (ChunkIndep.throwErr _) (ChunkIndep.bind (seekTo_chunkIndep _) fun _ =>
    ChunkIndep.bind ?_ fun _ => ChunkIndep.pure _)
  exact ChunkIndep.ite (ChunkIndep.fail _) (cdLoop_chunkIndep b _)

theorem lfh_chunkIndep (b : Build) : ChunkIndep (lfh b) := by
  unfold lfh
  refine ChunkIndep.bind (readExact_chunkIndep _) fun _ => ChunkIndep.ite ?_
    (ChunkIndep.ite (ChunkIndep.pure _) (ChunkIndep.throwErr _))
  refine ChunkIndep.bind (ChunkIndep.bind (readExact_chunkIndep _) fun _ => ChunkIndep.pure _) fun _ =>
    ChunkIndep.bind (readBytes_chunkIndep _) fun _ => ChunkIndep.bind (ChunkIndep.lift _) fun _ =>
    ChunkIndep.bind (readBytes_chunkIndep _) fun _ => ChunkIndep.bind (ChunkIndep.lift _) fun _ =>
    ChunkIndep.ite (ChunkIndep.throwErr _) (ChunkIndep.ite (ChunkIndep.throwErr _) (ChunkIndep.pure _))

theorem seekToDataOffset_chunkIndep (e : StoredZipEntry) : ChunkIndep (seekToDataOffset e) := by
  unfold seekToDataOffset
  exact ChunkIndep.bind (seekTo_chunkIndep _) fun _ => ChunkIndep.bind (readExact_chunkIndep _) fun _ =>
    ChunkIndep.ite (ChunkIndep.bind (ChunkIndep.bind (readExact_chunkIndep _) fun _ => ChunkIndep.pure _) fun _ =>
      ChunkIndep.bind (seekForward_chunkIndep _) fun _ => ChunkIndep.pure _) (ChunkIndep.throwErr _)

theorem consumeDataDescriptor_chunkIndep : ChunkIndep consumeDataDescriptor :=
  ChunkIndep.bind (readExact_chunkIndep _) fun _ => ChunkIndep.ite
    (ChunkIndep.bind (readExact_chunkIndep _) fun _ => ChunkIndep.pure _) (ChunkIndep.pure _)

theorem streamNext_chunkIndep (b : Build) : ChunkIndep (streamNext b) :=
  ChunkIndep.bind (lfh_chunkIndep b) fun o => by
    cases o <;> exact ChunkIndep.pure _

/-! ## Runs on the ideal source -/

/-- On a source that answers at once and in full, started at `pos`, `m` ends with `r` at `pos'`. -/
def Runs {α : Type} (m : Rd α) (data : Bytes) (pos : Nat) (r : Res α) (pos' : Nat) : Prop :=
  ∀ log, ∃ log', m ⟨data, pos, none, log⟩ = (r, ⟨data, pos', none, log'⟩)

theorem Runs.pure {α : Type} {a : α} {data : Bytes} {pos : Nat} : Runs (pure a : Rd α) data pos (.ok a) pos :=
  fun log => ⟨log, rfl⟩
theorem Runs.lift {α : Type} {r : Res α} {data : Bytes} {pos : Nat} : Runs (lift r) data pos r pos :=
  fun log => ⟨log, rfl⟩
theorem Runs.fail {α : Type} {e : Fail} {data : Bytes} {pos : Nat} : Runs (fail e : Rd α) data pos (.error e) pos :=
  fun log => ⟨log, rfl⟩

theorem Runs.bind {α β : Type} {m : Rd α} {f : α → Rd β} {data : Bytes} {pos pos1 pos2 : Nat} {a : α} {r : Res β}
    (hm : Runs m data pos (.ok a) pos1) (hf : Runs (f a) data pos1 r pos2) : Runs (m >>= f) data pos r pos2 := by
  intro log
  obtain ⟨l1, h1⟩ := hm log
  obtain ⟨l2, h2⟩ := hf l1
  exact ⟨l2, by rw [bind_of_ok h1, h2]⟩

theorem Runs.bind_error {α β : Type} {m : Rd α} {f : α → Rd β} {data : Bytes} {pos pos1 : Nat} {e : Fail}
    (hm : Runs m data pos (.error e) pos1) : Runs (m >>= f) data pos (.error e) pos1 := by
  intro log
  obtain ⟨l1, h1⟩ := hm log
  exact ⟨l1, by rw [bind_of_error h1]⟩

theorem Runs.ite_pos {α : Type} {c : Prop} [Decidable c] {m m' : Rd α} {data : Bytes} {pos pos' : Nat} {r : Res α}
    (hc : c) (h : Runs m data pos r pos') : Runs (if c then m else m') data pos r pos' := by
  rw [if_pos hc]; exact h
theorem Runs.ite_neg {α : Type} {c : Prop} [Decidable c] {m m' : Rd α} {data : Bytes} {pos pos' : Nat} {r : Res α}
    (hc : ¬ c) (h : Runs m' data pos r pos') : Runs (if c then m else m') data pos r pos' := by
  rw [if_neg hc]; exact h

theorem Runs.seekTo {data : Bytes} {pos t : Nat} : Runs (seekTo t) data pos (.ok t) t := fun _ => ⟨_, rfl⟩
theorem Runs.seekStart {data : Bytes} {pos t : Nat} : Runs (seekStart t) data pos (.ok t) t := Runs.seekTo
theorem Runs.seekForward {data : Bytes} {pos d : Nat} : Runs (seekForward d) data pos (.ok (pos + d)) (pos + d) :=
  fun _ => ⟨_, rfl⟩

theorem Runs.readExact {data : Bytes} {pos n : Nat} {b : Bytes} (h : (data.drop pos).take n = b) (hb : b.length = n) :
    Runs (readExact n) data pos (.ok b) (pos + n) := by
  intro log
  have hl : n ≤ (data.drop pos).length := by
    have := congrArg List.length h
    rw [List.length_take] at this
    omega
  obtain ⟨l, e⟩ := (readExactLoop_ideal n [] data pos log).1 hl
  exact ⟨l, by rw [show Rd.readExact n = readExactLoop n [] from rfl, e, h]; rfl⟩

theorem Runs.readExact_eof {data : Bytes} {pos n : Nat} (h : (data.drop pos).length < n) :
    Runs (Rd.readExact n) data pos (.error (.err (.upstreamReadError .unexpectedEof))) (pos + (data.drop pos).length) := by
  intro log
  exact (readExactLoop_ideal n [] data pos log).2 h

theorem Runs.readBytes {data : Bytes} {pos n : Nat} {b : Bytes} (h : (data.drop pos).take n = b) :
    Runs (readBytes n) data pos (.ok b) (pos + b.length) := by
  intro log
  obtain ⟨l, e⟩ := readUpToLoop_ideal n [] data pos log
  exact ⟨l, by rw [show Rd.readBytes n = readUpToLoop n [] from rfl, e, h]; rfl⟩

/-- The ideal run from a state determines the result under any schedule that is not interrupted. -/
theorem Runs.of_chunkIndep {α : Type} {m : Rd α} (hc : ChunkIndep m) {data : Bytes} {pos pos' : Nat} {r : Res α}
    (h : Runs m data pos r pos') (s : RState) (hd : s.data = data) (hp : s.pos = pos) :
    Interrupted (m s).1 ∨ ((m s).1 = r ∧ (m s).2.data = data ∧ (m s).2.pos = pos') := by
  obtain ⟨d, p, sc, log⟩ := s
  simp only at hd hp
  subst hd hp
  cases sc with
  | none =>
    obtain ⟨l, e⟩ := h log
    rw [e]
    exact Or.inr ⟨rfl, rfl, rfl⟩
  | some rs =>
    rcases hc d p log [] rs with hi | ⟨h1, h2, h3, _⟩
    · exact Or.inl hi
    · obtain ⟨l, e⟩ := h []
      rw [e] at h1 h2 h3
      exact Or.inr ⟨h1, h2, h3⟩

theorem not_interrupted_ok {α : Type} {a : α} : ¬ Interrupted (.ok a : Res α) := by
  rintro (h | ⟨c, h⟩) <;> cases h

/-- After a step whose final position is immaterial (a seek follows). -/
theorem Runs.bind_any {α β : Type} {m : Rd α} {f : α → Rd β} {data : Bytes} {pos pos2 : Nat} {a : α} {r : Res β}
    (hm : ∀ log, ∃ pos1 log', m ⟨data, pos, none, log⟩ = (.ok a, ⟨data, pos1, none, log'⟩))
    (hf : ∀ pos1, Runs (f a) data pos1 r pos2) : Runs (m >>= f) data pos r pos2 := by
  intro log
  obtain ⟨p1, l1, h1⟩ := hm log
  obtain ⟨l2, h2⟩ := hf p1 l1
  exact ⟨l2, by rw [bind_of_ok h1, h2]⟩

/-! ## What calls leave alone -/

/-- The data is left alone and an ideal source stays ideal. -/
def Keeps {α : Type} (m : Rd α) : Prop :=
  ∀ s, (m s).2.data = s.data ∧ (s.sched = none → (m s).2.sched = none)

theorem Keeps.pure {α : Type} {a : α} : Keeps (pure a : Rd α) := fun _ => ⟨rfl, fun h => h⟩
theorem Keeps.lift {α : Type} {r : Res α} : Keeps (lift r) := fun _ => ⟨rfl, fun h => h⟩
theorem Keeps.fail {α : Type} {e : Fail} : Keeps (fail e : Rd α) := fun _ => ⟨rfl, fun h => h⟩
theorem Keeps.bind {α β : Type} {m : Rd α} {f : α → Rd β} (hm : Keeps m) (hf : ∀ a, Keeps (f a)) : Keeps (m >>= f) := by
  intro s
  rw [bind_def]
  obtain ⟨h1, h2⟩ := hm s
  cases h : m s with
  | mk r s1 =>
    rw [h] at h1 h2
    cases r with
    | error e => exact ⟨h1, h2⟩
    | ok a =>
      obtain ⟨g1, g2⟩ := hf a s1
      exact ⟨g1.trans h1, fun hs => g2 (h2 hs)⟩
theorem Keeps.ite {α : Type} {c : Prop} [Decidable c] {m m' : Rd α} (h : Keeps m) (h' : Keeps m') :
    Keeps (if c then m else m') := by
  split <;> assumption

theorem readSched_data (n : Nat) (s : RState) (rs : List RdResp) : (readSched n s rs).2.data = s.data := by
  induction rs with
  | nil => rfl
  | cons r rs ih =>
    cases r with
    | pending => exact ih
    | _ => rfl

theorem seekSched_data (n : Nat) (s : RState) (rs : List RdResp) : (seekSched n s rs).2.data = s.data := by
  induction rs with
  | nil => rfl
  | cons r rs ih =>
    cases r with
    | pending => exact ih
    | _ => rfl

theorem readOnce_keeps (n : Nat) : Keeps (readOnce n) := by
  intro s
  obtain ⟨d, p, sc, l⟩ := s
  cases sc with
  | none => exact ⟨rfl, fun h => h⟩
  | some rs => exact ⟨readSched_data .., fun h => by cases h⟩

theorem seekTo_keeps (n : Nat) : Keeps (seekTo n) := by
  intro s
  obtain ⟨d, p, sc, l⟩ := s
  cases sc with
  | none => exact ⟨rfl, fun h => h⟩
  | some rs => exact ⟨seekSched_data .., fun h => by cases h⟩

theorem readUpToLoop_keeps (need : Nat) : ∀ acc, Keeps (readUpToLoop need acc) := by
  induction need using Nat.strongRecOn with
  | ind need ih =>
    intro acc
    unfold readUpToLoop
    split
    · exact Keeps.pure
    · refine Keeps.bind (readOnce_keeps _) fun b => ?_
      split
      · exact Keeps.pure
      · exact ih _ (by omega) _

theorem readExactLoop_keeps (need : Nat) : ∀ acc, Keeps (readExactLoop need acc) := by
  induction need using Nat.strongRecOn with
  | ind need ih =>
    intro acc
    unfold readExactLoop
    split
    · exact Keeps.pure
    · refine Keeps.bind (readOnce_keeps _) fun b => ?_
      split
      · exact Keeps.fail
      · exact ih _ (by omega) _

theorem readExact_keeps (n : Nat) : Keeps (readExact n) := readExactLoop_keeps n []
theorem readBytes_keeps (n : Nat) : Keeps (readBytes n) := readUpToLoop_keeps n []
theorem seekEnd_keeps : Keeps seekEnd := fun s => seekTo_keeps s.data.length s
theorem seekForward_keeps (d : Nat) : Keeps (seekForward d) := fun s => seekTo_keeps (s.pos + d) s

theorem eocdrLoop_keeps (length : Nat) (position : Nat) : Keeps (eocdrLoop length position) := by
  induction position using Nat.strongRecOn with
  | ind position ih =>
    unfold eocdrLoop
    refine Keeps.bind (readUpToLoop_keeps _ _) fun buffer => ?_
    split
    · exact Keeps.pure
    · split
      · exact Keeps.fail
      · refine Keeps.bind (seekTo_keeps _) fun _ => ih _ ?_
        rw [show BUFFER_SIZE - SIGNATURE_LENGTH = 2044 by decide]
        omega

theorem locateEocdr_keeps : Keeps locateEocdr :=
  Keeps.bind seekEnd_keeps fun _ => Keeps.bind (seekTo_keeps _) fun _ => eocdrLoop_keeps _ _

/-- The ideal source does not interrupt the locator. -/
theorem eocdrLoop_quiet (length : Nat) (position : Nat) : ∀ s : RState, s.sched = none →
    ¬ Interrupted (eocdrLoop length position s).1 := by
  induction position using Nat.strongRecOn with
  | ind position ih =>
    intro s hs
    obtain ⟨d, p, sc, l⟩ := s
    simp only at hs
    subst hs
    unfold eocdrLoop
    obtain ⟨l', e⟩ := readUpToLoop_ideal BUFFER_SIZE [] d p l
    rw [bind_of_ok (show fillBuffer ⟨d, p, none, l⟩ = _ from e)]
    cases reverseSearchBuffer ([] ++ List.take BUFFER_SIZE (List.drop p d)) (le32 EOCDR_SIGNATURE) with
    | some i => exact not_interrupted_ok
    | none =>
      simp only
      split
      · rintro (h | ⟨c, h⟩) <;> simp at h
      · rename_i hgo
        rw [bind_of_ok (show seekStart _ ⟨d, _, none, l'⟩ = _ from rfl)]
        refine ih _ ?_ _ rfl
        rw [show BUFFER_SIZE - SIGNATURE_LENGTH = 2044 by decide]
        omega

/-- Locating on the ideal source: what `locateEocdr_spec` leaves open is decided by where the signatures are. -/
theorem locateEocdr_ideal {data : Bytes} {j : Nat} (ho : OccursAt data eocdrSig j)
    (hlast : ∀ j', OccursAt data eocdrSig j' → j' ≤ j) (hnear : data.length ≤ j + 67456) (pos : Nat) (log : List RdEvent) :
    ∃ pos1 log', locateEocdr ⟨data, pos, none, log⟩ = (.ok (j + 4), ⟨data, pos1, none, log'⟩) := by
  obtain ⟨k1, k2⟩ := locateEocdr_keeps ⟨data, pos, none, log⟩
  have hq : ¬ Interrupted (locateEocdr ⟨data, pos, none, log⟩).1 := by
    unfold locateEocdr
    rw [bind_of_ok (show seekEnd ⟨data, pos, none, log⟩ = _ from rfl)]
    rw [bind_of_ok (show seekStart _ ⟨data, _, none, _⟩ = _ from rfl)]
    exact eocdrLoop_quiet _ _ _ rfl
  cases h : locateEocdr ⟨data, pos, none, log⟩ with
  | mk r s' =>
    rw [h] at k1 k2 hq
    obtain ⟨d, p, sc, l⟩ := s'
    simp only at k1 k2
    rw [k1, k2 trivial]
    rcases locateEocdr_reach _ _ _ h with ⟨j', hr, ho', hl', _⟩ | ⟨hr, hn⟩ | hi
    · have : j' = j := by
        have := hl' j ho
        have := hlast j' ho'
        omega
      subst this
      exact ⟨p, l, by rw [hr]⟩
    · have := hn j ho
      simp only at this
      omega
    · exact absurd hi hq

end AsyncZip
