import Verif.Proofs.Frame
import Verif.Samples.ProgramRuns
import Verif.Spec.RoundTrip
import Verif.Proofs.Samples
/-!
# C59: a file that was cut short
-/

namespace AsyncZip
open Spec Rd

/-- What a refused cut is reported as. -/
def CutError (r : Res ZipFile) : Prop :=
  r = .error (.err .unableToLocateEOCDR) ∨ r = .error (.err (.upstreamReadError .unexpectedEof))

theorem occursAt_take {data pat : Bytes} {n i : Nat} (hp : pat ≠ []) (h : OccursAt (data.take n) pat i) : OccursAt data pat i := by
  have hb := occursAt_bound h hp
  rw [List.length_take] at hb
  have h' : ((data.take n).drop i).take pat.length = pat := h
  rw [List.drop_take, List.take_take, Nat.min_eq_left (by omega)] at h'
  exact h'

/-- C59. If a file has one end record signature, at `j`, every cut of it that reaches into or beyond the fixed part of the
end record is refused, however the source behaves, and not by a panic. Partial: a cut inside the comment is not noticed
(`C59_comment_fails`), nor one behind another end record signature (`C59_nested_fails`). -/
theorem C59_cut_partial (B : Build) (data : Bytes) (j n : Nat) (hj : ∀ i, OccursAt data sigEnd i → i = j)
    (hn : n < j + 22) (s : RState) (hs : s.data = data.take n) :
    Interrupted (openFile B s).1 ∨ CutError (openFile B s).1 := by
  by_cases hi : Interrupted (openFile B s).1
  · exact Or.inl hi
  refine Or.inr ?_
  rw [openFile_ideal hi, hs]
  by_cases ho : OccursAt (data.take n) sigEnd j
  · have hlast : ∀ i, OccursAt (data.take n) sigEnd i → i ≤ j := fun i hi => Nat.le_of_eq (hj i (occursAt_take (by decide) hi))
    have hlen : (data.take n).length ≤ n := by rw [List.length_take]; omega
    have hr : Runs (openFile B) (data.take n) 0 (.error (.err (.upstreamReadError .unexpectedEof)))
        (j + 4 + ((data.take n).drop (j + 4)).length) := by
      rw [openFile_eq]
      refine Runs.bind_any (locateEocdr_ideal ho hlast (by omega) 0) fun p1 => ?_
      refine Runs.bind Runs.seekStart (Runs.bind_error (Runs.bind_error (Runs.readExact_eof ?_)))
      rw [List.length_drop]
      omega
    obtain ⟨l, e⟩ := hr []
    rw [e]
    exact Or.inr rfl
  · have hno : ∀ i, ¬ OccursAt (data.take n) sigEnd i := fun i hi => by
      have := hj i (occursAt_take (by decide) hi)
      subst this
      exact ho hi
    rw [openFile_eq]
    cases hl : locateEocdr ⟨data.take n, 0, none, []⟩ with
    | mk r s1 =>
      rcases locateEocdr_spec _ _ _ hl with ⟨i, -, h, -⟩ | ⟨rfl, -⟩ | h
      · exact absurd h (hno i)
      · rw [bind_of_error hl]
        exact Or.inl rfl
      · have hq : ¬ Interrupted (locateEocdr ⟨data.take n, 0, none, []⟩).1 := by
          unfold locateEocdr
          rw [bind_of_ok (show seekEnd ⟨data.take n, 0, none, []⟩ = _ from rfl)]
          rw [bind_of_ok (show seekStart _ ⟨data.take n, _, none, _⟩ = _ from rfl)]
          exact eocdrLoop_quiet _ _ _ rfl
        rw [hl] at hq
        exact absurd h hq

/-- C59 on a written archive: every proper prefix that cuts off more than the comment is refused. -/
example (B : Build) (n : Nat) (hn : n + (archiveComment Samples.program).length < Samples.programBytes.length) (s : RState)
    (hs : s.data = Samples.programBytes.take n) : Interrupted (openFile B s).1 ∨ CutError (openFile B s).1 := by
  refine C59_cut_partial B Samples.programBytes (endPosition Samples.programBytes (archiveComment Samples.program)) n
    (fun i hi => ?_) (by unfold endPosition; omega) s hs
  have hb := occursAt_bound hi (by decide)
  have : ∀ i < Samples.programBytes.length, OccursAt Samples.programBytes sigEnd i →
      i = endPosition Samples.programBytes (archiveComment Samples.program) := by unfold OccursAt; decide +kernel
  exact this i (by rw [show sigEnd.length = 4 from rfl] at hb; omega) hi

/-- The comment has no influence on the rest. -/
theorem openTail_comment (B : Build) (q : Nat) (e : EndOfCentralDirectoryHeader) (c c' : ZipString) (s : RState) :
    (openTail B q e c' s).1 = (openTail B q e c s).1.map fun f => { f with comment := c' } := by
  unfold openTail
  cases h : readCombined B q e s with
  | mk r s1 =>
    cases r with
    | error x => rw [bind_of_error h, bind_of_error h]; rfl
    | ok p =>
      obtain ⟨rec, z⟩ := p
      rw [bind_of_ok h, bind_of_ok h]
      dsimp only
      by_cases hc : rec.diskNumber ≠ rec.diskNumberStartOfCd ∨ rec.numEntries ≠ rec.numEntriesOnDisk
      · rw [if_pos hc, if_pos hc]; rfl
      · rw [if_neg hc, if_neg hc]
        cases h2 : seekStart rec.offsetOfStart.toNat s1 with
        | mk r2 s2 =>
          cases r2 with
          | error x => rw [bind_of_error h2, bind_of_error h2]; rfl
          | ok t =>
            rw [bind_of_ok h2, bind_of_ok h2]
            cases h3 : cd B rec.numEntries.toNat s2 with
            | mk r3 s3 =>
              cases r3 with
              | error x => rw [bind_of_error h3, bind_of_error h3]; rfl
              | ok es => rw [bind_of_ok h3, bind_of_ok h3]; rfl

theorem openTail_posIndep (B : Build) (j : Nat) (e : EndOfCentralDirectoryHeader) (cm : ZipString) :
    PosIndep (openTail B (j + 4) e cm) := by
  have hrest : ∀ (r : CombinedRecord) (z : Bool), PosIndep (do
      let _ ← seekStart r.offsetOfStart.toNat
      let entries ← cd B r.numEntries.toNat
      pure ({ entries, zip64 := z, comment := cm } : ZipFile)) := fun r z =>
    PosIndep.bind (seekTo_posIndep _) fun _ =>
      LogIndep.bind (LogIndep.ite LogIndep.fail (cdLoop_logIndep B _)) fun _ => LogIndep.pure
  unfold openTail
  by_cases h : j + 4 < ZIP64_EOCDL_LENGTH + SIGNATURE_LENGTH
  · have : readCombined B (j + 4) e = Pure.pure (CombinedRecord.ofEocdr e, false) := by
      unfold readCombined; exact if_pos h
    rw [this]
    intro data pos pos' sched log log'
    rw [bind_of_ok (show (Pure.pure (CombinedRecord.ofEocdr e, false) : Rd _) ⟨data, pos, sched, log⟩ = _ from rfl),
      bind_of_ok (show (Pure.pure (CombinedRecord.ofEocdr e, false) : Rd _) ⟨data, pos', sched, log'⟩ = _ from rfl)]
    dsimp only
    split
    · exact ⟨rfl, rfl, rfl, fun _ h => by cases h⟩
    · exact hrest _ _ data pos pos' sched log log'
  · have : PosIndep (readCombined B (j + 4) e) := by
      unfold readCombined
      rw [if_neg h]
      refine PosIndep.bind (seekTo_posIndep _) fun _ => ?_
      refine LogIndep.bind (LogIndep.bind (readExact_logIndep _) fun _ => ?_) fun l => ?_
      · exact LogIndep.ite LogIndep.pure (LogIndep.bind (readExact_logIndep _) fun _ => LogIndep.pure)
      · cases l with
        | none => exact LogIndep.pure
        | some l =>
          exact LogIndep.bind LogIndep.lift fun _ => LogIndep.bind (seekTo_logIndep _) fun _ =>
            LogIndep.bind (LogIndep.bind (readExact_logIndep _) fun _ => LogIndep.pure) fun _ => LogIndep.pure
    refine PosIndep.bind this fun x => ?_
    obtain ⟨r, z⟩ := x
    exact LogIndep.ite LogIndep.throwErr (LogIndep.bind (seekTo_logIndep _) fun _ =>
      LogIndep.bind (LogIndep.ite LogIndep.fail (cdLoop_logIndep B _)) fun _ => LogIndep.pure)

/-- Opening, in terms of where the end record is. -/
theorem openFile_tail (B : Build) {a : Bytes} {j : Nat} (he : LastEnd a j) (hn : a.length ≤ j + (18 + 4 + 65535))
    (hl : j + 22 ≤ a.length) : (openFile B ⟨a, 0, none, []⟩).1 =
      (openTail B (j + 4) (EndOfCentralDirectoryHeader.ofBytes ((a.drop (j + 4)).take 18))
        (ZipString.new (window a (j + 22) (fieldAt a (j + 20) 2)) .utf8) ⟨a, 0, none, []⟩).1 := by
  obtain ⟨p1, l1, e1⟩ := locateEocdr_ideal he.1 he.2 (by omega) 0 []
  rw [openFile_eq, bind_of_ok e1, openRest_eq]
  have h18 : ((a.drop (j + 4)).take 18).length = 18 := by rw [List.length_take, List.length_drop]; omega
  obtain ⟨l2, e2⟩ := (Runs.seekStart (data := a) (pos := p1) (t := j + 4)) l1
  rw [bind_of_ok e2]
  have hf : Runs EndOfCentralDirectoryHeader.fromReader a (j + 4) (.ok (EndOfCentralDirectoryHeader.ofBytes ((a.drop (j + 4)).take 18)))
      (j + 4 + 18) := Runs.bind (Runs.readExact rfl h18) Runs.pure
  obtain ⟨l3, e3⟩ := hf l2
  rw [bind_of_ok e3]
  have hcl : (EndOfCentralDirectoryHeader.ofBytes ((a.drop (j + 4)).take 18)).fileCommLength.toNat = fieldAt a (j + 20) 2 := by
    rw [show j + 20 = j + 4 + 16 by omega]
    exact read16 rfl h18 16 (by omega)
  rw [hcl]
  have hg : Runs (readString (fieldAt a (j + 20) 2) .utf8) a (j + 4 + 18)
      (.ok (ZipString.new (window a (j + 22) (fieldAt a (j + 20) 2)) .utf8))
      (j + 4 + 18 + (window a (j + 22) (fieldAt a (j + 20) 2)).length) :=
    Runs.bind (Runs.readBytes (by rw [window, show j + 22 = j + 4 + 18 by omega])) Runs.pure
  obtain ⟨l4, e4⟩ := hg l3
  rw [bind_of_ok e4]
  exact (openTail_posIndep B j _ _ a _ 0 none l4 []).1

/-- The two openings report the same error, or the same entries and the comment cut to `k` bytes. -/
def SameButComment (k : Nat) : Res ZipFile → Res ZipFile → Prop
  | .ok f, .ok g => g.entries = f.entries ∧ g.zip64 = f.zip64 ∧ g.comment.raw = f.comment.raw.take k
  | .error e, .error e' => e = e'
  | _, _ => False

/-- C59. A cut inside the archive comment is never noticed: the rest opens exactly as the whole file does - same entries, or
the same error - except that the comment ends where the file does. (For files whose directory is where it should be: before
the cut.) -/
theorem C59_comment (B : Build) (data : Bytes) (j n : Nat) (he : LastEnd data j) (hnear : data.length ≤ j + (18 + 4 + 65535))
    (hn : j + 22 ≤ n) (hlen : n ≤ data.length)
    (hd : declaredOffset data j + recordsLength data (declaredOffset data j) (declaredEntries data j) ≤ n)
    (hz : HasLocator data j → zip64End data j + 56 ≤ n ∧ zip64End data j + 4 < 2 ^ 64) (s t : RState)
    (hs : s.data = data.take n) (ht : t.data = data) (hsi : ¬ Interrupted (openFile B s).1)
    (hti : ¬ Interrupted (openFile B t).1) : SameButComment (n - (j + 22)) (openFile B t).1 (openFile B s).1 := by
  have hl : (data.take n).length = n := by rw [List.length_take]; omega
  have w : ∀ p k, p + k ≤ n → window data p k = window (data.take n) p k := fun p k h => by
    unfold window
    rw [List.drop_take, List.take_take, Nat.min_eq_left (by omega)]
  have he' : LastEnd (data.take n) j := by
    refine ⟨?_, fun i hi => he.2 i (occursAt_take (by decide) hi)⟩
    have := he.1
    exact (w j 4 (by omega)).symm.trans this
  have hsame : SameDirectory data (data.take n) j :=
    ⟨he, he', hnear, by omega, w _ _ (by omega), w _ _ (by omega), fun hl => ⟨(hz hl).2, w _ _ (hz hl).1⟩, w _ _ hd⟩
  have hf : fieldAt data (j + 20) 2 = fieldAt (data.take n) (j + 20) 2 := fieldAt_agree (w j 22 (by omega)) (by omega) (by omega)
  have hw : (data.drop (j + 4)).take 18 = ((data.take n).drop (j + 4)).take 18 := w (j + 4) 18 (by omega)
  rw [openFile_ideal hsi, openFile_ideal hti, hs, ht, openFile_tail B he hnear (by omega),
    openFile_tail B he' (by omega) (by omega), ← hw, ← hf]
  have hcm : window (data.take n) (j + 22) (fieldAt data (j + 20) 2) =
      (window data (j + 22) (fieldAt data (j + 20) 2)).take (n - (j + 22)) := by
    unfold window
    rw [List.drop_take, List.take_take, List.take_take, Nat.min_comm]
  rw [hcm]
  have hon := openTail_on (B := B) (cm := ZipString.new (window data (j + 22) (fieldAt data (j + 20) 2)) .utf8)
    (s := ⟨data, 0, none, []⟩) hsame (by dsimp only; omega) rfl
  unfold SameOn at hon
  have h1 := congrArg Prod.fst hon
  rw [show RState.on ⟨data, 0, none, []⟩ (data.take n) = ⟨data.take n, 0, none, []⟩ from rfl] at h1
  dsimp only at h1
  rw [openTail_comment B (j + 4) _ (ZipString.new (window data (j + 22) (fieldAt data (j + 20) 2)) .utf8)
    (ZipString.new ((window data (j + 22) (fieldAt data (j + 20) 2)).take (n - (j + 22))) .utf8), h1]
  have hc : ∀ f, (openTail B (j + 4) (EndOfCentralDirectoryHeader.ofBytes ((data.drop (j + 4)).take 18))
      (ZipString.new (window data (j + 22) (fieldAt data (j + 20) 2)) .utf8) ⟨data, 0, none, []⟩).1 = .ok f →
      f.comment = ZipString.new (window data (j + 22) (fieldAt data (j + 20) 2)) .utf8 := fun f hf => by
    rw [openTail_comment B (j + 4) _ (ZipString.new [] .utf8)] at hf
    cases hx : (openTail B (j + 4) (EndOfCentralDirectoryHeader.ofBytes ((data.drop (j + 4)).take 18))
      (ZipString.new [] .utf8) ⟨data, 0, none, []⟩).1 with
    | error e => rw [hx] at hf; cases hf
    | ok g => rw [hx] at hf; cases hf; rfl
  generalize (openTail B (j + 4) (EndOfCentralDirectoryHeader.ofBytes ((data.drop (j + 4)).take 18))
      (ZipString.new (window data (j + 22) (fieldAt data (j + 20) 2)) .utf8) ⟨data, 0, none, []⟩).1 = r at hc
  cases r with
  | error e => exact rfl
  | ok f => exact ⟨rfl, rfl, by rw [hc f rfl]; rfl⟩

/-- C59_comment on a file with a comment of one byte, cut off. -/
example (B : Build) (s t : RState) (hs : s.data = Samples.one.take 124) (ht : t.data = Samples.one)
    (hsi : ¬ Interrupted (openFile B s).1) (hti : ¬ Interrupted (openFile B t).1) :
    SameButComment 0 (openFile B t).1 (openFile B s).1 :=
  C59_comment B Samples.one 102 124 (lastEnd_of_decide (by unfold OccursAt; decide +kernel)) (by decide +kernel) (by decide)
    (by decide +kernel) (by decide +kernel) (fun h => absurd h (by unfold HasLocator OccursAt; decide +kernel)) s t hs ht hsi hti

/-- C59 as written does not hold: if the cut is inside the archive comment, the rest is opened as if the comment had ended
there. -/
theorem C59_comment_fails : ∃ (data : Bytes) (n : Nat), n < data.length ∧ ∀ (B : Build), 1 ≤ B.maxVecEntries →
    (∃ s : RState, s.data = data ∧ (openFile B s).1 = .ok Samples.oneFile) ∧
    ∀ s : RState, s.data = data.take n → Interrupted (openFile B s).1 ∨
      (openFile B s).1 = .ok { Samples.oneFile with comment := ⟨.utf8, [], none⟩ } := by
  refine ⟨Samples.one, 124, by decide +kernel, fun B hb => ⟨?_, fun s hs => ?_⟩⟩
  · obtain ⟨l, e⟩ := Samples.one_opens B hb 0 []
    exact ⟨⟨Samples.one, 0, none, []⟩, rfl, by rw [e]⟩
  · have he : OccursAt (Samples.one.take 124) eocdrSig 102 ∧ ∀ j', OccursAt (Samples.one.take 124) eocdrSig j' → j' ≤ 102 :=
      lastEnd_of_decide (by unfold OccursAt; decide +kernel)
    have hr : Runs (openFile B) (Samples.one.take 124) s.pos (.ok { Samples.oneFile with comment := ⟨.utf8, [], none⟩ }) 102 := by
      refine Runs.openFile (re := .ok Samples.oneFile.entries) (comment := []) (eo := Samples.oneEnd) he.1 he.2
        (by decide +kernel) (by decide +kernel) (by decide +kernel)
        (fun p => ⟨_, Runs.readCombined_plain (by decide) rfl (by decide +kernel) (by decide +kernel)⟩) rfl rfl
        (Runs.cd hb ?_)
      refine Runs.cdLoop_cons (Runs.cdRecord (rest := (Samples.one.take 124).drop 102) (xb := [153, 119, 2, 0, 1, 2])
        (by decide +kernel) rfl rfl rfl rfl (Samples.oneExtra B)) Runs.pure
    exact (hr.of_chunkIndep (openFile_chunkIndep B) s hs rfl).imp id fun h => h.1

namespace Samples

/-- Writing an empty archive into an archive. -/
def nest : List Op := [.whole storedEntry [80, 75, 5, 6, 0, 0, 0, 0, 0, 0, 0, 0, 0, 0, 0, 0, 0, 0, 0, 0, 0, 0] false eager]

/-- What comes of it. -/
def nestBytes : Bytes :=
  [80, 75, 3, 4, 10, 0, 0, 8, 0, 0, 131, 24, 34, 80, 14, 197, 203, 215, 22, 0, 0, 0, 22, 0, 0, 0, 3, 0, 0, 0, 97, 46, 116,
  80, 75, 5, 6, 0, 0, 0, 0, 0, 0, 0, 0, 0, 0, 0, 0, 0, 0, 0, 0, 0, 0, 80, 75, 1, 2, 63, 3, 10, 0, 0, 8, 0, 0, 131, 24,
  34, 80, 14, 197, 203, 215, 22, 0, 0, 0, 22, 0, 0, 0, 3, 0, 0, 0, 0, 0, 0, 0, 0, 0, 0, 0, 0, 0, 0, 0, 0, 0, 97, 46, 116,
  80, 75, 5, 6, 0, 0, 0, 0, 1, 0, 1, 0, 49, 0, 0, 0, 55, 0, 0, 0, 0, 0]

theorem nest_archive : (runArchive markCodec fresh nest eager).2.1 = .ok ⟨nestBytes, 0, 0⟩ := by decide +kernel

end Samples

/-- Nor does it hold for archives in archives: cut behind the data of an entry that is itself an archive, the file is
opened as that one, here as an archive without entries. -/
theorem C59_nested_fails : ∃ sink' n,
    (runArchive Samples.markCodec Samples.fresh Samples.nest Samples.eager).2.1 = .ok sink' ∧ n < sink'.bytes.length ∧
    ∀ (B : Build) (s : RState), s.data = sink'.bytes.take n → Interrupted (openFile B s).1 ∨
      (openFile B s).1 = .ok ⟨[], false, ⟨.utf8, [], none⟩⟩ := by
  refine ⟨⟨Samples.nestBytes, 0, 0⟩, 55, Samples.nest_archive, by decide +kernel, fun B s hs => ?_⟩
  have he : OccursAt (Samples.nestBytes.take 55) eocdrSig 33 ∧ ∀ j', OccursAt (Samples.nestBytes.take 55) eocdrSig j' → j' ≤ 33 :=
    lastEnd_of_decide (by unfold OccursAt; decide +kernel)
  have hr : Runs (openFile B) (Samples.nestBytes.take 55) s.pos (.ok ⟨[], false, ⟨.utf8, [], none⟩⟩) 0 :=
    Runs.openFile (re := .ok []) (comment := []) (eo := ⟨0, 0, 0, 0, 0, 0, 0⟩) he.1 he.2
      (by decide +kernel) (by decide +kernel) (by decide +kernel)
      (fun p => ⟨_, Runs.readCombined_plain (by decide) rfl (by decide +kernel) (by decide +kernel)⟩) rfl rfl
      (Runs.cd (Nat.zero_le _) Runs.pure)
  exact (hr.of_chunkIndep (openFile_chunkIndep B) s hs rfl).imp id fun h => h.1

end AsyncZip
