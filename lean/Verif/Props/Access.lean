import Verif.Spec.Access
import Verif.Props.Agree
/-!
# What the metadata of an entry decide when it is read

C105.
-/

namespace AsyncZip
open Spec Rd

theorem access_at {f f' : ZipFile} (h : f.entries.map Access = f'.entries.map Access) (i : Nat) :
    (f.entries[i]? = none ∧ f'.entries[i]? = none) ∨ ∃ e e', f.entries[i]? = some e ∧ f'.entries[i]? = some e' ∧ Access e = Access e' := by
  have := congrArg (fun l => l[i]?) h
  simp only [List.getElem?_map] at this
  cases h1 : f.entries[i]? with
  | none =>
    cases h2 : f'.entries[i]? with
    | none => exact Or.inl ⟨rfl, rfl⟩
    | some e' => rw [h1, h2] at this; cases this
  | some e =>
    cases h2 : f'.entries[i]? with
    | none => rw [h1, h2] at this; cases this
    | some e' =>
      rw [h1, h2] at this
      exact Or.inr ⟨e, e', rfl, rfl, Option.some.inj this⟩

theorem access_open {f f' : ZipFile} (h : f.entries.map Access = f'.entries.map Access) (i : Nat) (s : RState) :
    (∃ x s', readerWithEntry f i s = (.error x, s') ∧ readerWithEntry f' i s = (.error x, s')) ∨
      ∃ er e e' s', readerWithEntry f i s = (.ok (er, e), s') ∧ readerWithEntry f' i s = (.ok (er, e'), s') := by
  unfold readerWithEntry
  rcases access_at h i with ⟨h1, h2⟩ | ⟨e, e', h1, h2, h3⟩
  · rw [h1, h2]
    exact Or.inl ⟨_, _, rfl, rfl⟩
  · rw [h1, h2]
    unfold Access at h3
    obtain ⟨k1, k2⟩ := Prod.mk.inj h3
    obtain ⟨k2, k3⟩ := Prod.mk.inj k2
    have : seekToDataOffset e' = seekToDataOffset e := by unfold seekToDataOffset; rw [k1]
    simp only [bind_def, this, k2, k3]
    cases seekToDataOffset e s with
    | mk r s1 =>
      cases r with
      | error x => exact Or.inl ⟨_, _, rfl, rfl⟩
      | ok u => exact Or.inr ⟨_, _, _, _, rfl, rfl⟩

theorem access_call {f f' : ZipFile} (h : f.entries.map Access = f'.entries.map Access) (i : Nat) (s : RState) :
    AlikeSeen (callOpen f i s).1 (callOpen f' i s).1 ∧ (callOpen f i s).2 = (callOpen f' i s).2 := by
  unfold callOpen
  rcases access_open h i s with ⟨x, s', h1, h2⟩ | ⟨er, e, e', s', h1, h2⟩
  · rw [h1, h2]
    exact ⟨.same _, rfl⟩
  · rw [h1, h2]
    exact ⟨.opened _ _, rfl⟩

/-- C105. Whatever a client does with a seekable reader, what it gets of the data of entries, which errors it gets and where the source
is left depend, of all that the index says of an entry, only on the place, the compressed size and the method: not on the uncompressed
size, flags, names, or anything else. -/
theorem C105_seekable (C : Codec) (f f' : ZipFile) (h : f.entries.map Access = f'.entries.map Access) :
    ∀ (cs : List Call) (st : Option EntryReader × RState),
      List.Forall₂ AlikeSeen (seekSession C f cs st).1 (seekSession C f' cs st).1 ∧
        (seekSession C f cs st).2 = (seekSession C f' cs st).2
  | [], _ => ⟨.nil, rfl⟩
  | c :: cs, st => by
    have key : AlikeSeen (seekCall C f c st).1 (seekCall C f' c st).1 ∧ (seekCall C f c st).2 = (seekCall C f' c st).2 := by
      obtain ⟨o, s⟩ := st
      cases c with
      | «open» i => exact access_call h i s
      | read n => cases o <;> exact ⟨.same _, rfl⟩
      | readToEnd n => cases o <;> exact ⟨.same _, rfl⟩
      | computeHash => cases o <;> exact ⟨.same _, rfl⟩
    obtain ⟨k1, k2⟩ := key
    obtain ⟨i1, i2⟩ := C105_seekable C f f' h cs (seekCall C f c st).2
    simp only [seekSession]
    rw [← k2]
    exact ⟨.cons k1 i1, i2⟩

/-- C105. The same for any number of users of an in-memory or file reader. -/
theorem C105_shared (C : Codec) (data : Bytes) (f f' : ZipFile) (h : f.entries.map Access = f'.entries.map Access) :
    ∀ (cs : List SharedCall) (w : World),
      List.Forall₂ (fun a b => a.1 = b.1 ∧ AlikeSeen a.2 b.2) (sharedRun C data f cs w) (sharedRun C data f' cs w)
  | [], _ => .nil
  | c :: cs, w => by
    have key : AlikeSeen (sharedCall C data f c w).1 (sharedCall C data f' c w).1 ∧
        (sharedCall C data f c w).2 = (sharedCall C data f' c w).2 := by
      unfold sharedCall
      cases hc : c.call with
      | «open» i =>
        simp only
        have hn : f.entries[i]? = none ↔ f'.entries[i]? = none := by
          rw [List.getElem?_eq_none_iff, List.getElem?_eq_none_iff]
          have := congrArg List.length h
          rw [List.length_map, List.length_map] at this
          rw [this]
        by_cases hi : f.entries[i]? = none
        · rw [if_pos hi, if_pos (hn.1 hi)]
          exact ⟨.same _, rfl⟩
        · rw [if_neg hi, if_neg fun h => hi (hn.2 h)]
          cases c.openErr with
          | some e => exact ⟨.same _, rfl⟩
          | none =>
            obtain ⟨k1, k2⟩ := access_call h i { data := data, pos := 0, sched := c.sched, log := [] }
            simp only
            revert k1 k2
            generalize callOpen f i { data := data, pos := 0, sched := c.sched, log := [] } = a
            generalize callOpen f' i { data := data, pos := 0, sched := c.sched, log := [] } = b
            obtain ⟨a1, a2, a3⟩ := a
            obtain ⟨b1, b2⟩ := b
            intro k1 k2
            simp only at k2
            subst k2
            cases a2 <;> exact ⟨k1, rfl⟩
      | read n => exact ⟨.same _, rfl⟩
      | readToEnd n => exact ⟨.same _, rfl⟩
      | computeHash => exact ⟨.same _, rfl⟩
    obtain ⟨k1, k2⟩ := key
    simp only [sharedRun]
    refine .cons ⟨rfl, k1⟩ ?_
    rw [← k2]
    exact C105_shared C data f f' h cs _

/-- C105. Reading with the check also depends on the checksum, and on nothing else. -/
theorem C105_checked (C : Codec) (f f' : ZipFile) (h : f.entries.map Access = f'.entries.map Access) (i chunk : Nat)
    (hc : (f.entries[i]?.map fun e => e.entry.crc32) = f'.entries[i]?.map fun e => e.entry.crc32) (s : RState) :
    checkedRead C f i chunk s = checkedRead C f' i chunk s := by
  unfold checkedRead readerWithEntry
  rcases access_at h i with ⟨h1, h2⟩ | ⟨e, e', h1, h2, h3⟩
  · rw [h1, h2]
  · rw [h1, h2] at hc
    have hc : e.entry.crc32 = e'.entry.crc32 := Option.some.inj hc
    rw [h1, h2]
    unfold Access at h3
    obtain ⟨k1, k2⟩ := Prod.mk.inj h3
    obtain ⟨k2, k3⟩ := Prod.mk.inj k2
    have : seekToDataOffset e' = seekToDataOffset e := by unfold seekToDataOffset; rw [k1]
    simp only [bind_def, this, k2, k3]
    cases seekToDataOffset e s with
    | mk r s1 =>
      cases r with
      | error x => rfl
      | ok u =>
        simp only [pure_def, hc]

/-- C105, the size that is declared: what a reader shows as the uncompressed size of an entry that was compressed, or just stored, by
the writer is the length of what it gives for its data. Partial: as C41 and C42, and see `C105_size_fails`. -/
theorem C105_size_partial (C : Codec) (hC : Lawful C) (sink sink' : Sink) (zw : ZipWriter) (h : Created sink zw)
    (hs : sink.bytes = []) (ops : List Op) (evs : List Ev) (hc : (runArchive C zw ops evs).2.1 = .ok sink')
    (hleg : Legible ops (runArchive C zw ops evs).1 (runArchive C zw ops evs).2.2.isZip64 sink'.bytes)
    (hsmall : sink'.bytes.length ≤ 0xFFFFFFFF ∨
      ∀ ls, Program C ops (runArchive C zw ops evs).1 ls → ∀ l ∈ ls, l.us ≠ 0xFFFFFFFF ∧ l.cs ≠ 0xFFFFFFFF)
    (b : Build) (hb : (runArchive C zw ops evs).1.countP isListed ≤ b.maxVecEntries) :
    ∃ f : ZipFile, (∀ s : RState, s.data = sink'.bytes → Interrupted (openFile b s).1 ∨ (openFile b s).1 = .ok f) ∧
      ∀ (k : Nat) (op : Op) (r : OpResult) (e : ZipEntry) (d : Bytes), ops[k]? = some op → (runArchive C zw ops evs).1[k]? = some r →
        isListed r = true → Wrote op r e d → (zw.forceNoZip64 = true → ¬ Exchanged op) → ∃ i x, f.entries[i]? = some x ∧
          x.entry.uncompressedSize = UInt64.ofNat d.length ∧ ∀ chunk, 0 < chunk → ∀ s : RState, s.data = sink'.bytes →
            Interrupted (checkedRead C f i chunk s).1 ∨ (checkedRead C f i chunk s).1 = .ok d := by
  obtain ⟨f, h1, _, _, h4⟩ := listed_read hC h hs hc hleg hsmall b hb
  refine ⟨f, h1, fun k op r e d g1 g2 g3 hw hx => ?_⟩
  obtain ⟨l, off, x, ha, he, hra, _, _, _, hread⟩ := h4 k op r g1 g2 g3
  refine ⟨_, x, he, ?_, fun chunk hch s hsd => hread hx d (Wrote.data hw) chunk hch s hsd⟩
  rw [hra.us, Asked.recorded hx ha]
  exact (Wrote.holds hC hw ha).2.2.1

namespace Samples

/-- Precompressed data with a wrong size. -/
def boasting : List Op := [.whole { readyEntry with uncompressedSize := 77 } [1, 7, 1, 8, 1, 9, 0] true eager]

def boastingBytes : Bytes := [80, 75, 3, 4, 20, 0, 0, 8, 8, 0, 0, 0, 0, 0, 59, 253, 11, 75, 7, 0, 0, 0, 77, 0, 0, 0, 1, 0, 0, 0, 98,
  1, 7, 1, 8, 1, 9, 0, 80, 75, 1, 2, 63, 3, 20, 0, 0, 8, 8, 0, 0, 0, 0, 0, 59, 253, 11, 75, 7, 0, 0, 0, 77, 0, 0, 0, 1, 0, 0, 0, 0, 0,
  0, 0, 0, 0, 0, 0, 164, 1, 0, 0, 0, 0, 98, 80, 75, 5, 6, 0, 0, 0, 0, 1, 0, 1, 0, 47, 0, 0, 0, 38, 0, 0, 0, 0, 0]

theorem boasting_archive : (runArchive markCodec fresh boasting eager).1 = [.whole (.ok ())] ∧
    (runArchive markCodec fresh boasting eager).2.1 = .ok ⟨boastingBytes, 0, 0⟩ := by
  decide +kernel

theorem boasting_legible : Legible boasting (runArchive markCodec fresh boasting eager).1
    (runArchive markCodec fresh boasting eager).2.2.isZip64 boastingBytes where
  own := by
    rw [boasting]
    simp only [List.forall_mem_cons]
    exact ⟨(fun _ h => by cases h), fun _ h => by cases h⟩
  comment := by decide +kernel
  last := lastEnd_of_decide (by decide +kernel)
  locator := fun h => absurd h (by decide +kernel)
  count := by
    rw [boasting_archive.1]
    simp only [List.forall_mem_cons]
    exact ⟨(fun h => by cases h), fun _ h => by cases h⟩
  size := by decide +kernel

end Samples

/-- C105, the size does not hold of every archive that is written and read without complaint: with precompressed data the caller
states the uncompressed size, and neither the writer nor the reader, even checking, compares it with anything. Here an entry is shown
with 77 bytes and read, and confirmed, with three. -/
theorem C105_size_fails (b : Build) (hb : 1 ≤ b.maxVecEntries) :
    ∃ (f : ZipFile) (x : StoredZipEntry),
      (runArchive Samples.markCodec Samples.fresh Samples.boasting Samples.eager).2.1 = .ok ⟨Samples.boastingBytes, 0, 0⟩ ∧
      (∀ s : RState, s.data = Samples.boastingBytes → Interrupted (openFile b s).1 ∨ (openFile b s).1 = .ok f) ∧
      f.entries[0]? = some x ∧ x.entry.uncompressedSize = 77 ∧
      ∀ chunk, 0 < chunk → ∀ s : RState, s.data = Samples.boastingBytes →
        Interrupted (checkedRead Samples.markCodec f 0 chunk s).1 ∨ (checkedRead Samples.markCodec f 0 chunk s).1 = .ok [7, 8, 9] := by
  have hr := Samples.boasting_archive.1
  obtain ⟨f, h1, _, _, h4⟩ := listed_read Samples.markCodec_lawful (sink := ⟨[], 0, 0⟩) (sink' := ⟨Samples.boastingBytes, 0, 0⟩)
    (zw := Samples.fresh) .new rfl Samples.boasting_archive.2 Samples.boasting_legible (Or.inl (by decide +kernel)) b
    (by rw [hr]; exact hb)
  rw [hr] at h4
  obtain ⟨l, off, x, ha, he, hra, _, _, _, hread⟩ := h4 0 _ _ rfl rfl rfl
  refine ⟨f, x, Samples.boasting_archive.2, h1, he, ?_, fun chunk hch s hsd =>
    hread (fun h => by cases h) [7, 8, 9] (.wholePre _ _ _ _ _ Samples.ready_stands (by decide +kernel)) chunk hch s hsd⟩
  rw [hra.us, Asked.recorded (fun h => by cases h) ha]
  cases ha
  rfl

/-- C105 with the streamed entry of an archive: it is shown with the three bytes that were written, and read with them. -/
example (b : Build) (hb : 3 ≤ b.maxVecEntries) : ∃ (f : ZipFile) (i : Nat) (x : StoredZipEntry), f.entries[i]? = some x ∧
    x.entry.uncompressedSize = 3 ∧ ∀ s : RState, s.data = Samples.tourBytes →
      Interrupted (checkedRead Samples.markCodec f i 9 s).1 ∨ (checkedRead Samples.markCodec f i 9 s).1 = .ok [7, 8, 9] := by
  have hr := Samples.tour_archive.1
  obtain ⟨f, _, h⟩ := C105_size_partial Samples.markCodec Samples.markCodec_lawful ⟨[], 0, 0⟩ ⟨Samples.tourBytes, 1, 0⟩
    Samples.fresh .new rfl Samples.tour Samples.eager Samples.tour_archive.2 Samples.tour_legible (Or.inl (by decide +kernel)) b
    (by rw [hr]; exact hb)
  rw [hr] at h
  obtain ⟨i, x, h1, h2, h3⟩ := h 2 _ _ Samples.deflatedEntry [7, 8, 9] rfl rfl rfl
    (.stream _ _ _ _ _ _ (Or.inr (by simp [AllOk]))) (fun h => by cases h)
  exact ⟨f, i, x, h1, h2, h3 9 (by decide)⟩

/-- C105: an index that says otherwise about everything but the place, the method and the sizes stored serves as well. -/
example (C : Codec) (f : ZipFile) (n : ZipString) (cs : List Call) (st : Option EntryReader × RState) :
    (seekSession C f cs st).2 = (seekSession C { f with entries := f.entries.map fun e =>
      { e with entry := { e.entry with uncompressedSize := 77, filename := n, crc32 := 0 } } } cs st).2 :=
  (C105_seekable C f _ (by simp only [List.map_map]; rfl) cs st).2

end AsyncZip
