import Verif.Props.Damage
import Verif.Props.FileBuilder
/-!
# C111: the listing of an archive that was written, kept
-/

namespace AsyncZip
open Spec Rd

/-- C111, for what was written (by any program, as in C42). The listing of the archive and the bytes in front of its directory are
all that it takes: whatever follows them, or if nothing does, every entry reads back its data. The rest of what C42 assumes is assumed
here too. -/
theorem C111_written_partial (C : Codec) (hC : Lawful C) (sink sink' : Sink) (zw : ZipWriter) (h : Created sink zw)
    (hs : sink.bytes = []) (ops : List Op) (evs : List Ev) (hc : (runArchive C zw ops evs).2.1 = .ok sink')
    (hleg : Legible ops (runArchive C zw ops evs).1 (runArchive C zw ops evs).2.2.isZip64 sink'.bytes)
    (hsmall : sink'.bytes.length ≤ 0xFFFFFFFF ∨
      ∀ ls, Program C ops (runArchive C zw ops evs).1 ls → ∀ l ∈ ls, l.us ≠ 0xFFFFFFFF ∧ l.cs ≠ 0xFFFFFFFF)
    (hx : zw.forceNoZip64 = true → ∀ op ∈ ops, ¬ Exchanged op)
    (ds : List Bytes) (hds : DataIn C ops (runArchive C zw ops evs).1 ds) (b : Build) (hb : ds.length ≤ b.maxVecEntries) :
    ∃ (f : ZipFile) (dir stop : Nat) (js : List Nat),
      DirectoryOf sink'.bytes (runArchive C zw ops evs).2.2.isZip64 (archiveComment ops) dir stop js ∧ f.entries.length = ds.length ∧
      (∀ s : RState, s.data = sink'.bytes → Interrupted (openFile b s).1 ∨ (openFile b s).1 = .ok f) ∧
      ∀ x : Bytes, x.length < 2 ^ 64 → x.take dir = sink'.bytes.take dir → ∀ (comments : List ZipString) (i : Nat) (d : Bytes),
        ds[i]? = some d → ∀ chunk, 0 < chunk → ∀ s : RState, s.data = x →
          Interrupted (checkedRead C (comments.foldl ZipFileBuilder.comment (.ofFile f)).build i chunk s).1 ∨
          (checkedRead C (comments.foldl ZipFileBuilder.comment (.ofFile f)).build i chunk s).1 = .ok d := by
  obtain ⟨out, ps, offs, cd, z, fin⟩ := finished h hs hc (J := ¬ ∀ r ∈ (runArchive C zw ops evs).1, Fine r)
    (Classical.em _).symm
  have hcon := Program.data hC fin.program hds
  rw [List.forall₂_map_left_iff] at hcon
  have hl : ps.length = ds.length := hcon.length_eq
  obtain ⟨js, hdir, _⟩ := fin.onBytes (fun op ho => own_noZip64 (hleg.own op ho)) hleg.size
  obtain ⟨f, h1, h2, h3, h4⟩ := fin.shown (b := b) h hleg (fin.noClash hsmall) (by rw [hl]; exact hb)
  have hbytes : sink'.bytes = out ++ (cd ++ endBytes z ps.length cd.length out.length (commentBytes (finalComment none ops))) := fin.bytes
  refine ⟨f, out.length, out.length + cd.length, js, by rw [← fin.zip]; exact hdir, ?_, h1, ?_⟩
  · rw [← h2.length_eq, List.length_zip, ← fin.placed.length_eq, Nat.min_self, hl]
  · intro x hxs hxd comments i d hdi chunk hch s hsx
    obtain ⟨p, hp, hcd⟩ : ∃ p, ps[i]? = some p ∧ p.1.crc = crc32 d ∧ Holds C p.1 d := by
      have hi : i < ps.length := by rw [hl]; exact (List.getElem?_eq_some_iff.1 hdi).1
      obtain ⟨d', hd', hcd⟩ := forall₂_get' hcon (List.getElem?_eq_getElem hi)
      obtain rfl : d = d' := by rw [hdi] at hd'; cases hd'; rfl
      exact ⟨_, List.getElem?_eq_getElem hi, hcd⟩
    obtain ⟨off, hoi, a, y, rest, hout, hal, g⟩ := forall₂_get' fin.placed hp
    obtain ⟨e, he, hsh⟩ := forall₂_get' h2 (i := i) (a := (p, off)) (by
      rw [List.getElem?_zip_eq_some]; exact ⟨hp, hoi⟩)
    have hmem := List.mem_of_getElem? hp
    rw [hbytes, List.take_left] at hxd
    have hsplit : x = a ++ (y ++ (rest ++ x.drop out.length)) := by
      have := List.take_append_drop out.length x
      rw [hxd] at this
      conv => lhs; rw [← this, hout]
      simp only [List.append_assoc, hout]
    refine g.checked (fin.own hleg.own p hmem) hsplit hal hsh.readAs ?_ hxs ?_ hch hcd.2 hcd.1.symm s hsx
    · obtain ⟨op, ho, r, ha⟩ := Program.calls fin.program p.1 (List.mem_map_of_mem hmem)
      rw [Asked.recorded (fun hf => hx hf op ho) ha]
    · rw [built_all]
      exact he

theorem positions_le {data : Bytes} {pos stop : Nat} {js : List Nat} (h : Positions data pos js stop) : pos ≤ stop := by
  induction h with
  | nil => exact Nat.le_refl _
  | cons => omega

/-- C111 on the sample archive with three entries, one of them streamed: after its directory was cut off they are read all the same. -/
example (b : Build) (hb : 3 ≤ b.maxVecEntries) : ∃ (f : ZipFile) (dir : Nat), dir < Samples.tourBytes.length ∧
    (∀ s : RState, s.data = Samples.tourBytes → Interrupted (openFile b s).1 ∨ (openFile b s).1 = .ok f) ∧
    ∀ s : RState, s.data = Samples.tourBytes.take dir →
      (Interrupted (checkedRead Samples.markCodec f 1 9 s).1 ∨ (checkedRead Samples.markCodec f 1 9 s).1 = .ok [7, 8, 9]) := by
  have hr := Samples.tour_archive.1
  obtain ⟨f, dir, stop, js, h1, h2, h3, h4⟩ := C111_written_partial Samples.markCodec Samples.markCodec_lawful ⟨[], 0, 0⟩
    ⟨Samples.tourBytes, 1, 0⟩ Samples.fresh .new rfl Samples.tour Samples.eager Samples.tour_archive.2 Samples.tour_legible
    (Or.inl (by decide +kernel)) (fun h => by cases h) [[104, 105], [7, 8, 9], [5]] (by rw [hr]; exact Samples.tour_data) b hb
  have hd : dir ≤ stop := positions_le h1.records
  have := h1.last
  refine ⟨f, dir, ?_, h3, fun s hs => h4 _ (Nat.lt_of_le_of_lt (List.length_take_le' ..) (by decide +kernel)) ?_ [] 1 _ rfl 9 (by omega) s hs⟩
  · simp only at this; omega
  · rw [List.take_take, Nat.min_self]

end AsyncZip
