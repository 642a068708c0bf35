import Verif.Proofs.Open
/-!
# What a call's outcome depends on: the data, the schedule, and (before a seek) nothing else
-/

namespace AsyncZip
open Spec Rd

/-- The outcome does not depend on the trace. -/
def LogIndep {α : Type} (m : Rd α) : Prop :=
  ∀ data pos sched log log', (m ⟨data, pos, sched, log⟩).1 = (m ⟨data, pos, sched, log'⟩).1 ∧
    (m ⟨data, pos, sched, log⟩).2.data = (m ⟨data, pos, sched, log'⟩).2.data ∧
    (m ⟨data, pos, sched, log⟩).2.pos = (m ⟨data, pos, sched, log'⟩).2.pos ∧
    (m ⟨data, pos, sched, log⟩).2.sched = (m ⟨data, pos, sched, log'⟩).2.sched

/-- The outcome does not depend on the trace or the position. -/
def PosIndep {α : Type} (m : Rd α) : Prop :=
  ∀ data pos pos' sched log log', (m ⟨data, pos, sched, log⟩).1 = (m ⟨data, pos', sched, log'⟩).1 ∧
    (m ⟨data, pos, sched, log⟩).2.data = (m ⟨data, pos', sched, log'⟩).2.data ∧
    (m ⟨data, pos, sched, log⟩).2.sched = (m ⟨data, pos', sched, log'⟩).2.sched ∧
    (∀ a, (m ⟨data, pos, sched, log⟩).1 = .ok a →
      (m ⟨data, pos, sched, log⟩).2.pos = (m ⟨data, pos', sched, log'⟩).2.pos)

theorem LogIndep.pure {α : Type} {a : α} : LogIndep (pure a : Rd α) := fun _ _ _ _ _ => ⟨rfl, rfl, rfl, rfl⟩
theorem LogIndep.lift {α : Type} {r : Res α} : LogIndep (lift r) := fun _ _ _ _ _ => ⟨rfl, rfl, rfl, rfl⟩
theorem LogIndep.fail {α : Type} {e : Fail} : LogIndep (fail e : Rd α) := fun _ _ _ _ _ => ⟨rfl, rfl, rfl, rfl⟩
theorem LogIndep.throwErr {α : Type} {e : ZipError} : LogIndep (throwErr e : Rd α) := LogIndep.fail

theorem LogIndep.bind {α β : Type} {m : Rd α} {f : α → Rd β} (hm : LogIndep m) (hf : ∀ a, LogIndep (f a)) :
    LogIndep (m >>= f) := by
  intro data pos sched log log'
  obtain ⟨h1, h2, h3, h4⟩ := hm data pos sched log log'
  rw [bind_def, bind_def]
  generalize m ⟨data, pos, sched, log⟩ = x at *
  generalize m ⟨data, pos, sched, log'⟩ = y at *
  obtain ⟨r, d1, p1, sc1, l1⟩ := x
  obtain ⟨r', d2, p2, sc2, l2⟩ := y
  simp only at h1 h2 h3 h4
  subst h1 h2 h3 h4
  cases r with
  | ok a => exact hf a _ _ _ _ _
  | error e => exact ⟨rfl, rfl, rfl, rfl⟩

theorem LogIndep.ite {α : Type} {c : Prop} [Decidable c] {m m' : Rd α} (h : LogIndep m) (h' : LogIndep m') :
    LogIndep (if c then m else m') := by
  split <;> assumption

theorem PosIndep.bind {α β : Type} {m : Rd α} {f : α → Rd β} (hm : PosIndep m) (hf : ∀ a, LogIndep (f a)) :
    PosIndep (m >>= f) := by
  intro data pos pos' sched log log'
  obtain ⟨h1, h2, h3, h4⟩ := hm data pos pos' sched log log'
  rw [bind_def, bind_def]
  generalize m ⟨data, pos, sched, log⟩ = x at *
  generalize m ⟨data, pos', sched, log'⟩ = y at *
  obtain ⟨r, d1, p1, sc1, l1⟩ := x
  obtain ⟨r', d2, p2, sc2, l2⟩ := y
  simp only at h1 h2 h3 h4
  subst h1 h2 h3
  cases r with
  | ok a =>
    have := h4 a rfl
    subst this
    obtain ⟨g1, g2, g3, g4⟩ := hf a d1 p1 sc1 l1 l2
    exact ⟨g1, g2, g4, fun _ _ => g3⟩
  | error e => exact ⟨rfl, rfl, rfl, fun a h => by cases h⟩

theorem readSched_logIndep (n : Nat) (data : Bytes) (pos : Nat) (sc : Option (List RdResp)) (log log' : List RdEvent)
    (rs : List RdResp) :
    (readSched n ⟨data, pos, sc, log⟩ rs).1 = (readSched n ⟨data, pos, sc, log'⟩ rs).1 ∧
    (readSched n ⟨data, pos, sc, log⟩ rs).2.data = (readSched n ⟨data, pos, sc, log'⟩ rs).2.data ∧
    (readSched n ⟨data, pos, sc, log⟩ rs).2.pos = (readSched n ⟨data, pos, sc, log'⟩ rs).2.pos ∧
    (readSched n ⟨data, pos, sc, log⟩ rs).2.sched = (readSched n ⟨data, pos, sc, log'⟩ rs).2.sched := by
  induction rs with
  | nil => exact ⟨rfl, rfl, rfl, rfl⟩
  | cons r rs ih =>
    cases r with
    | pending => exact ih
    | _ => exact ⟨rfl, rfl, rfl, rfl⟩

theorem readOnce_logIndep (n : Nat) : LogIndep (readOnce n) := by
  intro data pos sched log log'
  cases sched with
  | none => exact ⟨rfl, rfl, rfl, rfl⟩
  | some rs => exact readSched_logIndep n data pos (some rs) log log' rs

theorem seekSched_posIndep (t : Nat) (data : Bytes) (pos pos' : Nat) (sc : Option (List RdResp)) (log log' : List RdEvent)
    (rs : List RdResp) :
    (seekSched t ⟨data, pos, sc, log⟩ rs).1 = (seekSched t ⟨data, pos', sc, log'⟩ rs).1 ∧
    (seekSched t ⟨data, pos, sc, log⟩ rs).2.data = (seekSched t ⟨data, pos', sc, log'⟩ rs).2.data ∧
    (seekSched t ⟨data, pos, sc, log⟩ rs).2.sched = (seekSched t ⟨data, pos', sc, log'⟩ rs).2.sched ∧
    (∀ a, (seekSched t ⟨data, pos, sc, log⟩ rs).1 = .ok a →
      (seekSched t ⟨data, pos, sc, log⟩ rs).2.pos = (seekSched t ⟨data, pos', sc, log'⟩ rs).2.pos) := by
  induction rs with
  | nil => exact ⟨rfl, rfl, rfl, fun a h => by cases h⟩
  | cons r rs ih =>
    cases r with
    | pending => exact ih
    | chunk c => exact ⟨rfl, rfl, rfl, fun _ _ => rfl⟩
    | error c => exact ⟨rfl, rfl, rfl, fun a h => by cases h⟩

theorem seekTo_posIndep (t : Nat) : PosIndep (seekTo t) := by
  intro data pos pos' sched log log'
  cases sched with
  | none => exact ⟨rfl, rfl, rfl, fun _ _ => rfl⟩
  | some rs => exact seekSched_posIndep t data pos pos' (some rs) log log' rs

theorem seekTo_logIndep (t : Nat) : LogIndep (seekTo t) := by
  intro data pos sched log log'
  cases sched with
  | none => exact ⟨rfl, rfl, rfl, rfl⟩
  | some rs =>
    show (seekSched t ⟨data, pos, some rs, log⟩ rs).1 = (seekSched t ⟨data, pos, some rs, log'⟩ rs).1 ∧ _
    have : ∀ sc, (seekSched t ⟨data, pos, sc, log⟩ rs).1 = (seekSched t ⟨data, pos, sc, log'⟩ rs).1 ∧
        (seekSched t ⟨data, pos, sc, log⟩ rs).2.data = (seekSched t ⟨data, pos, sc, log'⟩ rs).2.data ∧
        (seekSched t ⟨data, pos, sc, log⟩ rs).2.pos = (seekSched t ⟨data, pos, sc, log'⟩ rs).2.pos ∧
        (seekSched t ⟨data, pos, sc, log⟩ rs).2.sched = (seekSched t ⟨data, pos, sc, log'⟩ rs).2.sched := by
      intro sc
      induction rs with
      | nil => exact ⟨rfl, rfl, rfl, rfl⟩
      | cons r rs ih =>
        cases r with
        | pending => exact ih
        | _ => exact ⟨rfl, rfl, rfl, rfl⟩
    exact this _

theorem seekEnd_posIndep : PosIndep seekEnd := fun data => seekTo_posIndep data.length data
theorem seekForward_logIndep (d : Nat) : LogIndep (seekForward d) := fun data pos => seekTo_logIndep (pos + d) data pos

theorem readUpToLoop_logIndep (need : Nat) : ∀ acc, LogIndep (readUpToLoop need acc) := by
  induction need using Nat.strongRecOn with
  | ind need ih =>
    intro acc
    unfold readUpToLoop
    split
    · exact LogIndep.pure
    · refine LogIndep.bind (readOnce_logIndep _) fun b => ?_
      split
      · exact LogIndep.pure
      · exact ih _ (by omega) _

theorem readExactLoop_logIndep (need : Nat) : ∀ acc, LogIndep (readExactLoop need acc) := by
  induction need using Nat.strongRecOn with
  | ind need ih =>
    intro acc
    unfold readExactLoop
    split
    · exact LogIndep.pure
    · refine LogIndep.bind (readOnce_logIndep _) fun b => ?_
      split
      · exact LogIndep.fail
      · exact ih _ (by omega) _

theorem readExact_logIndep (n : Nat) : LogIndep (readExact n) := readExactLoop_logIndep n []
theorem readBytes_logIndep (n : Nat) : LogIndep (readBytes n) := readUpToLoop_logIndep n []

theorem eocdrLoop_logIndep (length position : Nat) : LogIndep (eocdrLoop length position) := by
  induction position using Nat.strongRecOn with
  | ind position ih =>
    unfold eocdrLoop
    refine LogIndep.bind (readUpToLoop_logIndep _ _) fun buffer => ?_
    split
    · exact LogIndep.pure
    · split
      · exact LogIndep.fail
      · refine LogIndep.bind (seekTo_logIndep _) fun _ => ih _ ?_
        rw [show BUFFER_SIZE - SIGNATURE_LENGTH = 2044 by decide]
        omega

theorem locateEocdr_posIndep : PosIndep locateEocdr :=
  PosIndep.bind seekEnd_posIndep fun _ => LogIndep.bind (seekTo_logIndep _) fun _ => eocdrLoop_logIndep _ _

theorem assertSignature_logIndep (e : UInt32) : LogIndep (assertSignature e) :=
  LogIndep.bind (readExact_logIndep _) fun _ => LogIndep.ite LogIndep.pure LogIndep.throwErr

theorem cdRecord_logIndep (b : Build) : LogIndep (cdRecord b) := by
  unfold cdRecord
  refine LogIndep.bind (assertSignature_logIndep _) fun _ =>
    LogIndep.bind (LogIndep.bind (readExact_logIndep _) fun _ => LogIndep.pure) fun _ =>
    LogIndep.bind (readBytes_logIndep _) fun _ => LogIndep.bind LogIndep.lift fun _ =>
    LogIndep.bind (readBytes_logIndep _) fun _ => LogIndep.bind LogIndep.lift fun _ =>
    LogIndep.bind (readBytes_logIndep _) fun _ => LogIndep.pure

theorem cdLoop_logIndep (b : Build) (n : Nat) : LogIndep (cdLoop b n) := by
  induction n with
  | zero => exact LogIndep.pure
  | succ n ih => exact LogIndep.bind (cdRecord_logIndep b) fun _ => LogIndep.bind ih fun _ => LogIndep.pure

theorem readCombined_logIndep (b : Build) (off : Nat) (e : EndOfCentralDirectoryHeader) :
    LogIndep (readCombined b off e) := by
  unfold readCombined
  refine LogIndep.ite LogIndep.pure (LogIndep.bind (seekTo_logIndep _) fun _ => LogIndep.bind ?_ fun l => ?_)
  · exact LogIndep.bind (readExact_logIndep _) fun _ => LogIndep.ite LogIndep.pure
      (LogIndep.bind (readExact_logIndep _) fun _ => LogIndep.pure)
  · split
    · exact LogIndep.bind LogIndep.lift fun _ => LogIndep.bind (seekTo_logIndep _) fun _ =>
        LogIndep.bind (LogIndep.bind (readExact_logIndep _) fun _ => LogIndep.pure) fun _ => LogIndep.pure
    · exact LogIndep.pure

theorem openFile_posIndep (b : Build) : PosIndep (openFile b) := by
  unfold openFile
  refine PosIndep.bind locateEocdr_posIndep fun _ => LogIndep.bind (seekTo_logIndep _) fun _ =>
    LogIndep.bind (LogIndep.bind (readExact_logIndep _) fun _ => LogIndep.pure) fun _ =>
    LogIndep.bind (LogIndep.bind (readBytes_logIndep _) fun _ => LogIndep.pure) fun _ =>
    LogIndep.bind (readCombined_logIndep b _ _) fun x => ?_
  obtain ⟨r, z⟩ := x
  refine LogIndep.ite LogIndep.throwErr (LogIndep.bind (seekTo_logIndep _) fun _ =>
    LogIndep.bind ?_ fun _ => LogIndep.pure)
  exact LogIndep.ite LogIndep.fail (cdLoop_logIndep b _)

theorem seekToDataOffset_posIndep (e : StoredZipEntry) : PosIndep (seekToDataOffset e) := by
  unfold seekToDataOffset
  exact PosIndep.bind (seekTo_posIndep _) fun _ => LogIndep.bind (readExact_logIndep _) fun _ =>
    LogIndep.ite (LogIndep.bind (LogIndep.bind (readExact_logIndep _) fun _ => LogIndep.pure) fun _ =>
      LogIndep.bind (seekForward_logIndep _) fun _ => LogIndep.pure) LogIndep.throwErr

end AsyncZip
