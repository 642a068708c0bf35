import Verif.Proofs.OpenPanic
import Verif.Proofs.Progress
import Verif.Proofs.History
import Verif.Proofs.Samples
/-!
# C15-C21: locating the end record and opening an archive
-/

namespace AsyncZip
open Spec Rd

/-! ## C15 -/

/-- C15. Whatever the schedule, a located offset is just after the last end-of-central-directory signature. -/
theorem C15_located_is_last (s s' : RState) (p : Nat) (h : locateEocdr s = (.ok p, s')) :
    ∃ j, p = j + 4 ∧ LastEnd s.data j := by
  rcases locateEocdr_spec s s' _ h with ⟨j, hr, ho, hl⟩ | ⟨hr, _⟩ | hi
  · cases hr
    exact ⟨j, rfl, ho, hl⟩
  · cases hr
  · exact absurd hi not_interrupted_ok

/-- C15. If a signature starts within the last 18+4+65535 bytes, locating finds the last one, under any schedule that
does not interrupt it. -/
theorem C15_found_if_near (s : RState) (j : Nat) (h : OccursAt s.data sigEnd j) (hn : s.data.length ≤ j + (18 + 4 + 65535)) :
    Interrupted (locateEocdr s).1 ∨ ∃ j', LastEnd s.data j' ∧ (locateEocdr s).1 = .ok (j' + 4) := by
  cases hr : locateEocdr s with
  | mk r s' =>
    rcases locateEocdr_spec s s' r hr with ⟨j', hr', ho, hl⟩ | ⟨_, hall⟩ | hi
    · exact Or.inr ⟨j', ⟨ho, hl⟩, hr'⟩
    · have := hall j h
      omega
    · exact Or.inl hi

/-- C15. Data without the signature is reported as such. -/
theorem C15_absent (s : RState) (h : ∀ j, ¬ OccursAt s.data sigEnd j) :
    Interrupted (locateEocdr s).1 ∨ (locateEocdr s).1 = .error (.err .unableToLocateEOCDR) := by
  cases hr : locateEocdr s with
  | mk r s' =>
    rcases locateEocdr_spec s s' r hr with ⟨j', _, ho, _⟩ | ⟨hr', _⟩ | hi
    · exact absurd ho (h j')
    · exact Or.inr hr'
    · exact Or.inl hi

/-- C15. A source that keeps answering, however little at a time, lets locating complete. -/
theorem C15_completes (data : Bytes) (pos c : Nat) (log : List RdEvent) :
    ∃ k, ¬ Interrupted (locateEocdr ⟨data, pos, some (List.replicate k (.chunk c)), log⟩).1 := by
  obtain ⟨k, r, p, hr, h⟩ := locateEocdr_completes c data pos
  obtain ⟨l, e⟩ := h 0 log
  exact ⟨k, by rw [Nat.add_zero] at e; rw [e]; exact hr⟩

/-- C15 on a real archive: the end record of `Samples.one` is found at offset 102. -/
example : ∃ s', locateEocdr ⟨Samples.one, 0, none, []⟩ = (.ok 106, s') := by
  obtain ⟨p, l, h⟩ := locateEocdr_ideal Samples.one_end.1 Samples.one_end.2 (by decide +kernel) 0 []
  exact ⟨_, h⟩

/-! ## C16 -/

/-- Number of seeks in a trace; the locator seeks once to the end and then once before each buffer fill. -/
def seeks (l : List RdEvent) : Nat := (l.filter fun e => match e with | .seek _ => true | _ => false).length

/-- C16. Locating terminates (it is a total function), makes at most 34 seeks (one to the end, one before each fill), and
never reads or seeks below `length - (65557 + 2044)`. -/
theorem C16_bounded_io (s : RState) : ∃ new, (locateEocdr s).2.log = s.log ++ new ∧ seeks new ≤ 34 ∧
    ∀ e ∈ new, match e with
      | .read p _ => s.data.length ≤ p + (65557 + 2044)
      | .seek t => s.data.length ≤ t + (65557 + 2044) := by
  obtain ⟨new, h1, h2, h3⟩ := locateEocdr_logs s
  refine ⟨new, h1, h3, fun e he => ?_⟩
  have := h2 e he
  cases e <;> simp only [NearEnd] at this ⊢ <;> omega

/-! ## C17 -/

/-- C17. Opening under any schedule is interrupted or gives what it gives on full reads. -/
theorem C17_chunk_independent (b : Build) (data : Bytes) (pos : Nat) (rs : List RdResp) :
    Interrupted (openFile b ⟨data, pos, some rs, []⟩).1 ∨
      (openFile b ⟨data, pos, some rs, []⟩).1 = (openFile b ⟨data, pos, none, []⟩).1 := by
  rcases openFile_chunkIndep b data pos [] [] rs with h | ⟨h, _⟩
  · exact Or.inl h
  · exact Or.inr h

/-- C17. The position of the source before opening does not matter. -/
theorem C17_start_irrelevant (b : Build) (data : Bytes) (pos pos' : Nat) (sched : Option (List RdResp))
    (log log' : List RdEvent) :
    (openFile b ⟨data, pos, sched, log⟩).1 = (openFile b ⟨data, pos', sched, log'⟩).1 :=
  (openFile_posIndep b data pos pos' sched log log').1

/-- C17. A source that keeps answering, however little at a time, lets opening complete: the first alternative of
`C17_chunk_independent` is not forced. -/
theorem C17_completes (b : Build) (data : Bytes) (pos c : Nat) (log : List RdEvent) :
    ∃ k, ¬ Interrupted (openFile b ⟨data, pos, some (List.replicate k (.chunk c)), log⟩).1 := by
  obtain ⟨k, r, p, hr, h⟩ := openFile_completes b c data pos
  obtain ⟨l, e⟩ := h 0 log
  exact ⟨k, by rw [Nat.add_zero] at e; rw [e]; exact hr⟩

/-- C17 on a real archive: reading one byte per poll gives the same listing. -/
example : ∃ k, (openFile ⟨false, 1000⟩ ⟨Samples.one, 7, some (List.replicate k (.chunk 0)), []⟩).1 = .ok Samples.oneFile := by
  obtain ⟨k, h⟩ := C17_completes ⟨false, 1000⟩ Samples.one 7 0 []
  rcases C17_chunk_independent ⟨false, 1000⟩ Samples.one 7 (List.replicate k (.chunk 0)) with h' | h'
  · exact absurd h' h
  · obtain ⟨l, e⟩ := Samples.one_opens ⟨false, 1000⟩ (by decide) 7 []
    exact ⟨k, by rw [h', e]⟩

/-! ## C18 -/

/-- C18, the part that holds: every panic while opening any bytes under any schedule is one of three: the ZIP64 locator
points within four bytes of 2^64, the declared number of entries exceeds what a vector can hold, or (with overflow
checks) a record's extra field block claims more bytes than remain. The full claim (never) is refuted below. -/
theorem C18_panics_explained_partial (b : Build) (s : RState) (h : (openFile b s).1 = .error .panic) :
    ∃ j, LastEnd s.data j ∧
      ((HasLocator s.data j ∧ 2 ^ 64 ≤ zip64End s.data j + 4) ∨ b.maxVecEntries < declaredEntries s.data j ∨
        (b.overflowChecks = true ∧ OverlongRecord s.data)) := by
  cases hr : openFile b s with
  | mk r s' =>
    rw [hr] at h
    simp only at h
    subst h
    exact openFile_panic hr

/-- C18, the part that holds: a release build never panics on an archive without a ZIP64 locator. -/
theorem C18_release_no_zip64_partial (b : Build) (s : RState) (hb : b.overflowChecks = false) (hv : 65535 ≤ b.maxVecEntries)
    (hl : ∀ j, LastEnd s.data j → ¬ HasLocator s.data j) : (openFile b s).1 ≠ .error .panic := by
  intro h
  obtain ⟨j, hj, hc⟩ := C18_panics_explained_partial b s h
  rcases hc with ⟨h1, _⟩ | h1 | ⟨h1, _⟩
  · exact hl j hj h1
  · rw [declaredEntries, declared, if_neg (fun h => hl j hj h.1)] at h1
    have := fieldAt_lt' s.data (j + 10) 2
    omega
  · rw [hb] at h1; cases h1

/-- C18 is false: opening a 98-byte input panics in every build (a vector cannot hold 2^64-1 entries), a 42-byte input
panics in a build with overflow checks, and so does an archive with an overlong extra field. -/
theorem C18_never_panics_fails :
    (∀ b : Build, b.maxVecEntries < 2 ^ 64 - 1 → (openFile b ⟨Samples.huge, 0, none, []⟩).1 = .error .panic) ∧
    (∀ b : Build, b.overflowChecks = true → (openFile b ⟨Samples.farLocator, 0, none, []⟩).1 = .error .panic) ∧
    (∀ b : Build, b.overflowChecks = true → 1 ≤ b.maxVecEntries →
      (openFile b ⟨Samples.overlong, 0, none, []⟩).1 = .error .panic) := by
  refine ⟨fun b h => ?_, fun b h => ?_, fun b h h' => ?_⟩
  · obtain ⟨p, hr⟩ := Samples.huge_panics b h 0
    obtain ⟨l, e⟩ := hr []
    rw [e]
  · obtain ⟨p, hr⟩ := Samples.farLocator_panics b h 0
    obtain ⟨l, e⟩ := hr []
    rw [e]
  · obtain ⟨p, hr⟩ := Samples.overlong_panics b h h' 0
    obtain ⟨l, e⟩ := hr []
    rw [e]

/-- The hypotheses of `C18_release_no_zip64_partial` are met by a real archive. -/
example : ∀ j, LastEnd Samples.one j → ¬ HasLocator Samples.one j := by
  intro j hj
  have : j = 102 := by
    have h1 := hj.2 102 Samples.one_end.1
    have h2 := Samples.one_end.2 j hj.1
    omega
  subst this
  decide +kernel

/-! ## C19 -/

/-- C19. If opening succeeds under any schedule, then with `j` the last end-record signature: the archive is not spanned,
there are exactly as many entries as the end records declare, and they are what the consecutive central directory records
at the declared offset say. (The locator offset is assumed not to overflow; C18 covers that case.) -/
theorem C19_entries (b : Build) (s s' : RState) (f : ZipFile) (h : openFile b s = (.ok f, s'))
    (hfit : ∀ j, LastEnd s.data j → HasLocator s.data j → zip64End s.data j + 4 < 2 ^ 64) :
    ∃ j, LastEnd s.data j ∧ j + 22 ≤ s.data.length ∧ declaredDisk s.data j = declaredStartDisk s.data j ∧
      declaredEntries s.data j = declaredEntriesOnDisk s.data j ∧ f.entries.length = declaredEntries s.data j ∧
      (f.zip64 = true ↔ HasLocator s.data j) ∧ Records s.data (declaredOffset s.data j) f.entries ∧
      f.comment.asBytes = window s.data (j + 22) (fieldAt s.data (j + 20) 2) := by
  obtain ⟨j, h1, h2, h3, h4, h5, h6, h7, h8⟩ := openFile_ok h hfit
  exact ⟨j, h1, h2, h3, h4, h5, h6, h7, by rw [h8]; rfl⟩

/-- C19. A spanned archive is rejected: if the declared disks or counts differ, opening does not succeed. -/
theorem C19_spanned_rejected (b : Build) (s s' : RState) (f : ZipFile)
    (hfit : ∀ j, LastEnd s.data j → HasLocator s.data j → zip64End s.data j + 4 < 2 ^ 64)
    (hsp : ∀ j, LastEnd s.data j → declaredDisk s.data j ≠ declaredStartDisk s.data j ∨
      declaredEntries s.data j ≠ declaredEntriesOnDisk s.data j) : openFile b s ≠ (.ok f, s') := by
  intro h
  obtain ⟨j, h1, _, h3, h4, _⟩ := openFile_ok h hfit
  rcases hsp j h1 with h | h
  · exact h h3
  · exact h h4

/-- C19 on a real archive: its one entry is read from the record at 43. -/
example : Records Samples.one 43 Samples.oneFile.entries ∧ Samples.oneFile.entries.length = 1 := by
  obtain ⟨l, e⟩ := Samples.one_opens ⟨true, 1000⟩ (by decide) 0 []
  have hno : ¬ HasLocator Samples.one 102 := by decide +kernel
  have hj : ∀ j, LastEnd Samples.one j → j = 102 := by
    intro j hj
    have h1 := hj.2 102 Samples.one_end.1
    have h2 := Samples.one_end.2 j hj.1
    omega
  obtain ⟨j, h1, _, _, _, h5, _, h7, _⟩ := C19_entries _ _ _ _ e (fun j h hl => absurd (hj j h ▸ hl) hno)
  have := hj j h1
  subst this
  rw [show declaredOffset Samples.one 102 = 43 by decide +kernel] at h7
  exact ⟨h7, rfl⟩

/-! ## C20 -/

/-- C20. Combining the two end records: each field is the ZIP64 one iff the classic one is saturated. -/
theorem C20_override (e : EndOfCentralDirectoryHeader) (z : Zip64EndOfCentralDirectoryRecord) :
    let c := CombinedRecord.combine e z
    c.diskNumber.toNat = (if e.diskNum.toNat = 2 ^ 16 - 1 then z.diskNumber.toNat else e.diskNum.toNat) ∧
    c.diskNumberStartOfCd.toNat
      = (if e.startCentDirDisk.toNat = 2 ^ 16 - 1 then z.diskNumberStartOfCd.toNat else e.startCentDirDisk.toNat) ∧
    c.numEntriesOnDisk.toNat
      = (if e.numOfEntriesDisk.toNat = 2 ^ 16 - 1 then z.numEntriesOnDisk.toNat else e.numOfEntriesDisk.toNat) ∧
    c.numEntries.toNat = (if e.numOfEntries.toNat = 2 ^ 16 - 1 then z.numEntries.toNat else e.numOfEntries.toNat) ∧
    c.directorySize.toNat = (if e.sizeCentDir.toNat = 2 ^ 32 - 1 then z.directorySize.toNat else e.sizeCentDir.toNat) ∧
    c.offsetOfStart.toNat = (if e.centDirOffset.toNat = 2 ^ 32 - 1 then z.offsetOfStart.toNat else e.centDirOffset.toNat) ∧
    c.fileCommentLength = e.fileCommLength := by
  have sat16 : ∀ v : UInt16, v = 0xFFFF ↔ v.toNat = 2 ^ 16 - 1 := fun v => by
    rw [← UInt16.toNat_inj]; rfl
  have sat32 : ∀ v : UInt32, v = 0xFFFFFFFF ↔ v.toNat = 2 ^ 32 - 1 := fun v => by
    rw [← UInt32.toNat_inj]; rfl
  simp only [CombinedRecord.combine, CombinedRecord.ofEocdr, sat16, sat32]
  refine ⟨?_, ?_, ?_, ?_, ?_, ?_, trivial⟩ <;> split <;> simp

/-- C20. Without a ZIP64 end record every field is kept. -/
theorem C20_kept (e : EndOfCentralDirectoryHeader) :
    let c := CombinedRecord.ofEocdr e
    c.diskNumber.toNat = e.diskNum.toNat ∧ c.diskNumberStartOfCd.toNat = e.startCentDirDisk.toNat ∧
    c.numEntriesOnDisk.toNat = e.numOfEntriesDisk.toNat ∧ c.numEntries.toNat = e.numOfEntries.toNat ∧
    c.directorySize.toNat = e.sizeCentDir.toNat ∧ c.offsetOfStart.toNat = e.centDirOffset.toNat ∧
    c.fileCommentLength = e.fileCommLength := by
  simp [CombinedRecord.ofEocdr]

/-- C20. Which of the two applies to an archive: the values opening uses are the declared ones, by offsets in the data. -/
theorem C20_in_archive (b : Build) (j : Nat) (e : EndOfCentralDirectoryHeader) (s s' : RState) (r : CombinedRecord) (z : Bool)
    (h : readCombined b (j + 4) e s = (.ok (r, z), s'))
    (hfit : HasLocator s.data j → zip64End s.data j + 4 < 2 ^ 64) (hj : j + 22 ≤ s.data.length)
    (he : e = EndOfCentralDirectoryHeader.ofBytes (window s.data (j + 4) 18)) :
    (z = true ↔ HasLocator s.data j) ∧ r.diskNumber.toNat = declaredDisk s.data j ∧
    r.diskNumberStartOfCd.toNat = declaredStartDisk s.data j ∧ r.numEntriesOnDisk.toNat = declaredEntriesOnDisk s.data j ∧
    r.numEntries.toNat = declaredEntries s.data j ∧ r.offsetOfStart.toNat = declaredOffset s.data j :=
  (readCombined_ok h hfit hj he).2

/-- C20 on concrete records: count and offset saturated, the rest kept. -/
example : let c := CombinedRecord.combine Samples.hugeEnd Samples.hugeRecord
    c.numEntries = 0xFFFFFFFFFFFFFFFF ∧ c.offsetOfStart = 0 ∧ c.diskNumber = 0 := by decide

/-! ## C21 -/

/-- C21, the part that holds: a listed record that lies within the data has a name, extra field block and comment of exactly
the declared lengths; every record but the last lies within the data. -/
theorem C21_lengths_partial (data : Bytes) (off : Nat) (e : StoredZipEntry) (es : List StoredZipEntry)
    (h : Records data off (e :: es)) (hin : es ≠ [] ∨ off + recordLength data off ≤ data.length) :
    (e.entry.filename.alternative.getD e.entry.filename.raw).length = fieldAt data (off + 28) 2 ∧
    (e.entry.comment.alternative.getD e.entry.comment.raw).length = fieldAt data (off + 32) 2 ∧
    (∃ blocks tail block, block.length = fieldAt data (off + 30) 2 ∧ Blocks block blocks tail ∧ tail.length ≤ 4 ∧
      List.Forall₂ Represents e.entry.extraFields blocks) ∧
    off + recordLength data off ≤ data.length := by
  cases h with
  | cons _ _ _ hr hs =>
    have hin : off + recordLength data off ≤ data.length := by
      rcases hin with h | h
      · cases hs with
        | nil => exact absurd rfl h
        | cons _ _ _ hr' _ =>
          have := hr'.fits
          omega
      · exact h
    have hin' := hin
    rw [recordLength] at hin
    have hw : ∀ p n, p + n ≤ data.length → (window data p n).length = n := by
      intro p n h
      rw [window, List.length_take, List.length_drop]
      omega
    refine ⟨?_, ?_, ?_, hin'⟩
    · rw [hr.name, hw _ _ (by omega)]
    · rw [hr.comment, hw _ _ (by omega)]
    · obtain ⟨blocks, tail, h1, h2, h3⟩ := hr.extra
      exact ⟨blocks, tail, _, hw _ _ (by omega), h1, h2, h3⟩

/-- C21 is false for the last record: `Samples.truncated` declares a 255-byte comment but only 25 bytes follow; opening
succeeds and lists a 25-byte comment (which is the end record itself). -/
theorem C21_declared_lengths_fails (b : Build) (hb : 1 ≤ b.maxVecEntries) :
    ∃ f s' e, openFile b ⟨Samples.truncated, 0, none, []⟩ = (.ok f, s') ∧ f.entries = [e] ∧
      fieldAt Samples.truncated (43 + 32) 2 = 255 ∧ (e.entry.comment.alternative.getD e.entry.comment.raw).length = 25 := by
  obtain ⟨l, h⟩ := Samples.truncated_opens b hb 0 []
  refine ⟨_, _, _, h, rfl, by decide +kernel, ?_⟩
  simp only [cdEntryOf, basic_comment]
  decide +kernel

end AsyncZip
