import Verif.Proofs.Accepted
import Verif.Props.Independent
import Verif.Props.Opening
import Verif.Props.Openable
import Verif.Props.Frame
/-!
# C84: the library reads what other software reads
-/

namespace AsyncZip
open Spec Rd

theorem independent_some {data : Bytes} {is : List Item} {comment : Bytes} (h : independent data = some (is, comment)) :
    ∃ j, LastEnd data j ∧ declaredDisk data j = 0 ∧ declaredStartDisk data j = 0 ∧
      declaredEntriesOnDisk data j = declaredEntries data j ∧ is.length = declaredEntries data j ∧
      (HasLocator data j → zip64End data j + 76 ≤ j) ∧ j + 22 + fieldAt data (j + 20) 2 = data.length ∧
      comment = data.drop (j + 22) ∧
      ∃ stop, stop ≤ j ∧ AllAccepted data stop (declaredOffset data j) is := by
  unfold independent at h
  cases hl : lastEndBelow data data.length with
  | none => rw [hl] at h; cases h
  | some j =>
    rw [hl] at h
    simp only at h
    by_cases hc : declaredDisk data j = 0 ∧ declaredStartDisk data j = 0 ∧
        declaredEntriesOnDisk data j = declaredEntries data j ∧
        directoryEnd data j = some (declaredOffset data j + declaredSize data j) ∧
        j + 22 + fieldAt data (j + 20) 2 = data.length
    · rw [if_pos hc] at h
      obtain ⟨c1, c2, c3, c4, c5⟩ := hc
      obtain ⟨is', h1, h2⟩ := Option.map_eq_some_iff.1 h
      cases h2
      obtain ⟨g1, g2⟩ := items_some h1
      unfold directoryEnd at c4
      by_cases hloc : HasLocator data j
      · rw [if_pos hloc] at c4
        by_cases hk : OccursAt data sigZip64End (zip64End data j) ∧ 44 ≤ fieldAt data (zip64End data j + 4) 8 ∧
            zip64End data j + 12 + fieldAt data (zip64End data j + 4) 8 + 20 = j
        · rw [if_pos hk] at c4
          have c4 := Option.some.inj c4
          exact ⟨j, lastEnd_of_some hl, c1, c2, c3, g2, fun _ => by omega, c5, rfl, _, by omega, g1⟩
        · rw [if_neg hk] at c4; cases c4
      · rw [if_neg hloc] at c4
        have c4 := Option.some.inj c4
        exact ⟨j, lastEnd_of_some hl, c1, c2, c3, g2, fun h => absurd h hloc, c5, rfl, _, by omega, g1⟩
    · rw [if_neg hc] at h; cases h

theorem method_unique {m m' : Compression} {v : Nat} (h : (m, v) ∈ methodTable) (h' : (m', v) ∈ methodTable) : m = m' := by
  revert h h'
  cases m <;> cases m' <;> simp [methodTable] <;> omega

/-- What the reader makes of an entry's bytes, in terms of the item. -/
theorem contains_iff {C : Codec} {data : Bytes} {start : Nat} {i : Item} {m : Compression} {d : Bytes}
    (hm : (m, i.method) ∈ methodTable) (hs : i.stored = window data start i.cs) :
    Contains C i d ↔ (entryData C m data start i.cs).out = d ∧ (entryData C m data start i.cs).ok = true := by
  unfold Contains entryData
  by_cases h0 : m = .stored
  · subst h0
    have hz : i.method = 0 := by simpa [methodTable] using hm
    rw [if_pos rfl, ← hs]
    refine ⟨?_, fun h => Or.inl ⟨hz, h.1⟩⟩
    rintro (⟨_, h⟩ | ⟨m', k, h1, h2, _⟩)
    · exact ⟨h, rfl⟩
    · exact absurd (method_unique h1 hm) h2
  · rw [if_neg h0, ← hs]
    refine ⟨?_, fun h => Or.inr ⟨m, _, hm, h0, by rw [← h.1, ← h.2]⟩⟩
    rintro (⟨h, _⟩ | ⟨m', k, h1, h2, h3⟩)
    · rw [h] at hm
      exact absurd (method_unique hm (by decide)) h0
    · cases method_unique h1 hm
      rw [h3]
      exact ⟨rfl, rfl⟩

/-- Reading an entry with the check gives what its bytes stand for. -/
theorem Both.read {C : Codec} {data d : Bytes} {i : Item} {e : StoredZipEntry} {f : ZipFile} {k chunk : Nat} {s : RState}
    (h : Both data i e) (he : f.entries[k]? = some e) (hch : 0 < chunk) (hs : s.data = data) :
    Interrupted (checkedRead C f k chunk s).1 ∨
      ((checkedRead C f k chunk s).1 = .ok d ↔ Contains C i d ∧ (crc32 d).toNat = i.crc) := by
  obtain ⟨g1, g2, g3, g4⟩ := h
  have hcrc : (crc32 d).toNat = i.crc ↔ crc32 d = e.entry.crc32 := by rw [← g1.crc, UInt32.toNat_inj]
  rw [contains_iff g1.method g4, hcrc]
  unfold checkedRead
  cases hr : readerWithEntry f k s with
  | mk r s1 =>
    cases r with
    | error y =>
      left
      rw [bind_of_error hr]
      rcases C74_entry_iff f k s with hi | hi
      · rw [hr] at hi
        exact interrupted_cast hi
      · have hd : e.fileOffset + 30 ≤ data.length := by
          unfold dataStart at g3
          omega
        obtain ⟨x, hx⟩ := hi.2 ⟨e, he, by rw [hs]; exact g2, by rw [hs]; exact hd⟩
        rw [hr] at hx
        cases hx
    | ok x =>
      have hx := hr
      simp only [readerWithEntry, he] at hx
      obtain ⟨_, s2, h1, h2⟩ := bind_ok_iff.1 hx
      obtain ⟨_, _, h3, h4⟩ := seekToDataOffset_ok h1
      simp only [pure_def, Prod.mk.injEq, Except.ok.injEq] at h2
      obtain ⟨rfl, rfl⟩ := h2
      rw [bind_of_ok hr]
      simp only
      rw [hs] at h3 h4
      unfold EntryReader.readToEndChecked
      cases hq : (EntryReader.new e.entry.compression e.entry.compressedSize.toNat).readToEnd C chunk s2 with
      | mk r s3 =>
        have hrest := rest_new C e.entry.compression e.entry.compressedSize.toNat s2
        rw [h3, h4, g1.cs] at hrest
        cases r with
        | error y =>
          obtain ⟨_, g⟩ := readToEnd_err hq
          rw [bind_of_error (bind_of_error hq)]
          rcases g with g | ⟨_, g⟩
          · exact Or.inl (interrupted_cast g)
          · right
            rw [g1.cs, hrest] at g
            rw [g]
            exact ⟨fun h => (by cases h), fun h => (by cases h.1.2)⟩
        | ok y =>
          obtain ⟨out, er'⟩ := y
          obtain ⟨k1, k2, _, _, k5⟩ := readToEnd_ok hch hq
          rw [g1.cs, hrest] at k1 k2
          right
          have hh : er'.computeHash.1 = crc32 out := by
            rw [show er'.computeHash.1 = er'.hasher.finalize from rfl, k5]
            rfl
          rw [← k1, k2]
          by_cases hcr : crc32 out = e.entry.crc32
          · rw [bind_of_ok ((bind_of_ok hq).trans (by simp only [hh, if_pos hcr]; rfl))]
            refine ⟨fun h => ?_, fun h => ?_⟩
            · cases h; exact ⟨⟨rfl, rfl⟩, hcr⟩
            · rw [h.1.1]; rfl
          · rw [bind_of_error ((bind_of_ok hq).trans (by simp only [hh, if_neg hcr]; rfl))]
            refine ⟨fun h => (by cases h), fun h => ?_⟩
            rw [← h.1.1] at h
            exact absurd h.2 hcr

/-- C84. Every file that a reader going by the specification alone accepts, whoever wrote it, and whose entries use only what
the library supports, the library opens; it shows the same entries with the same names, comments, methods, dates, checksums,
sizes and attributes, in the same order, and the same comment; and reading an entry with the check gives exactly the data its
bytes stand for, if they stand for data with that checksum, and fails otherwise. -/
theorem C84_accepted (b : Build) (data : Bytes) (is : List Item) (comment : Bytes)
    (h : independent data = some (is, comment)) (hlen : data.length < 2 ^ 64) (hm : ∀ i ∈ is, Supported i)
    (hb : is.length ≤ b.maxVecEntries) :
    ∃ f : ZipFile, (∀ s : RState, s.data = data → Interrupted (openFile b s).1 ∨ (openFile b s).1 = .ok f) ∧
      f.comment.asBytes = comment ∧ List.Forall₂ Matches is f.entries ∧
      ∀ (C : Codec) (k chunk : Nat) (i : Item) (d : Bytes), 0 < chunk → is[k]? = some i → ∀ s : RState, s.data = data →
        Interrupted (checkedRead C f k chunk s).1 ∨
          ((checkedRead C f k chunk s).1 = .ok d ↔ Contains C i d ∧ (crc32 d).toNat = i.crc) := by
  obtain ⟨j, j1, j2, j3, j4, j5, j6, j7, j8, stop, j9, j10⟩ := independent_some h
  have hc := fieldAt_lt' data (j + 20) 2
  have ho : Openable b.maxVecEntries data j := by
    refine ⟨j1, by unfold reach; omega, by omega, fun hl => ?_, by rw [j2, j3], j4.symm, by rw [← j5]; exact hb, ?_⟩
    · have := j6 hl
      omega
    · rw [← j5]
      exact j10.good (by omega) hm
  have hfit : HasLocator data j → zip64End data j + 4 < 2 ^ 64 := fun hl => by
    have := j6 hl
    omega
  obtain ⟨f, pos', hr⟩ := Openable.runs ho hfit 0
  obtain ⟨log, h0⟩ := hr []
  have hlast : ∀ j', LastEnd data j' → j' = j := fun j' h' => Nat.le_antisymm (j1.2 _ h'.1) (h'.2 _ j1.1)
  obtain ⟨j', f1, _, _, _, f5, _, f7, f8⟩ := openFile_ok h0 (fun j' h' hl => by
    cases hlast j' h'
    exact hfit hl)
  cases hlast j' f1
  have hboth := j10.both f7 (by rw [f5, j5])
  refine ⟨f, fun s hs => ?_, ?_, hboth.imp fun _ _ h => h.1, fun C k chunk i d hch hi s hs => ?_⟩
  · obtain ⟨f', p', hr'⟩ := Openable.runs ho hfit s.pos
    have hff : f' = f := by
      obtain ⟨l', h'⟩ := hr' []
      have := (openFile_posIndep b data 0 s.pos none [] []).1
      rw [h', h0] at this
      cases this
      rfl
    subst hff
    exact (hr'.of_chunkIndep (openFile_chunkIndep b) s hs rfl).imp id fun h => h.1
  · rw [f8, j8]
    show window data (j + 22) (fieldAt data (j + 20) 2) = _
    unfold window
    rw [List.take_of_length_le (by rw [List.length_drop]; omega)]
  · obtain ⟨e, he, g⟩ := forall₂_get' hboth hi
    exact g.read he hch hs

/-! ## Concrete cases -/

/-- An archive not written by the library's model: a stored entry with an extra field, and comments. -/
theorem one_independent : independent Samples.one = some
    ([⟨[97, 46, 116, 120, 116], [111, 107], 0, 6275, 20514, 3633523372, 2, 2, 0, 27525120, [(30617, [1, 2])], [104, 105]⟩],
      [99]) := by decide +kernel

example (b : Build) (hb : 1 ≤ b.maxVecEntries) := C84_accepted b Samples.one _ _ one_independent (by decide +kernel) (by
  intro i hi
  cases List.mem_singleton.1 hi
  refine ⟨⟨.stored, by decide⟩, fun block hb => ?_⟩
  cases List.mem_singleton.1 hb
  rintro (h | h) <;> cases h) hb

/-- The same archive with another name in the local header. -/
def disagreeing : Bytes := Samples.one.set 30 7

/-- There is no such statement in the other direction: where local header and directory disagree, a careful reader rejects the archive, and
the library neither rejects it nor mentions it. -/
theorem C84_disagreement_unnoticed (b : Build) (hb : 1 ≤ b.maxVecEntries) (C : Codec) :
    independent disagreeing = none ∧
    (∀ s : RState, s.data = disagreeing → Interrupted (openFile b s).1 ∨ (openFile b s).1 = .ok Samples.oneFile) ∧
    (∀ s : RState, s.data = disagreeing → Interrupted (checkedRead C Samples.oneFile 0 1 s).1 ∨
      (checkedRead C Samples.oneFile 0 1 s).1 = .ok [104, 105]) := by
  refine ⟨by decide +kernel, fun s hs => ?_, fun s hs => ?_⟩
  · by_cases hi : Interrupted (openFile b s).1
    · exact Or.inl hi
    right
    obtain ⟨l, ho⟩ := Samples.one_opens b hb 0 []
    have hsplit : Samples.one.take 43 ++ Samples.one.drop 43 = Samples.one := List.take_append_drop _ _
    have hd : disagreeing = disagreeing.take 43 ++ Samples.one.drop 43 := by decide +kernel
    rw [← C58_entries_unread b (Samples.one.take 43) (disagreeing.take 43) (Samples.one.drop 43) 102 (by decide +kernel)
      (hsplit ▸ Samples.one_end) (hsplit ▸ by decide +kernel) (by decide) (hsplit ▸ by decide +kernel)
      (hsplit ▸ fun h => absurd h (by decide +kernel)) ⟨Samples.one, 0, none, []⟩ s hsplit.symm (hs.trans hd)
      (by rw [ho]; exact not_interrupted_ok) hi, ho]
  · refine (Both.read (C := C) (d := [104, 105]) (data := disagreeing) (i := ⟨[97, 46, 116, 120, 116], [111, 107], 0, 6275, 20514, 3633523372, 2, 2, 0,
      27525120, [(30617, [1, 2])], [104, 105]⟩) ?_ (rfl : Samples.oneFile.entries[0]? = some _) Nat.one_pos hs).imp id fun h => ?_
    · refine ⟨⟨by decide +kernel, by decide +kernel, by decide +kernel, by decide +kernel, by decide +kernel,
        by decide +kernel, by decide +kernel, by decide +kernel, by decide +kernel, by decide +kernel⟩, by decide +kernel,
        by decide +kernel, by decide +kernel⟩
    · exact h.2 ⟨Or.inl ⟨rfl, rfl⟩, by decide +kernel⟩

end AsyncZip
