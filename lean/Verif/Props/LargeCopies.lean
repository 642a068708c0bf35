import Verif.Proofs.LargeCopies
import Verif.Props.Clash
import Verif.Props.Copies
import Verif.Samples.ProgramRuns
/-!
# C100: entries that bring a ZIP64 field along

An entry that was read from an archive in which it needed a ZIP64 field has that field among its extra fields. These are the
sizes and the place the directory record gives if it is written to another archive.
-/

namespace AsyncZip
open Spec Wr

theorem Finished.saying {C : Codec} {zw : ZipWriter} {ops : List Op} {evs : List Ev}
    {bytes out cd : Bytes} {J : Prop} {ps : List (Listing × CdEntry)} {offs : List Nat} {z : Bool}
    (fin : Finished C zw ops evs bytes J out ps offs cd z) (hfull : ∀ op ∈ ops, ∀ f ∈ userFields op, FullField f)
    (hsize : bytes.length < 2 ^ 64) :
    ∃ js, DirectoryOf bytes z (archiveComment ops) out.length (out.length + cd.length) js ∧
      List.Forall₂ (fun (q : Listing × Nat) j => (OccursAt bytes sigLocal q.2 ∧ OccursAt bytes q.1.entry.filename.basic (q.2 + 30)) ∧
        Describes32 bytes j q.1 ∧ SaysLarge zw.forceNoZip64 bytes q j) ((ps.map Prod.fst).zip offs) js := by
  have hb := fin.bytes
  rw [commentBytes_eq] at hb
  have hl := archive_length out cd z ps.length (archiveComment ops)
  rw [← hb] at hl
  have hea : endAt out cd z = out.length + cd.length + if z = true then 76 else 0 := rfl
  have hdd := archive_drop_cd out cd z ps.length (archiveComment ops)
  rw [← hb] at hdd
  have hno : ∀ p ∈ ps, ∀ f ∈ p.1.entry.extraFields, FullField f := by
    intro p hp f hf
    obtain ⟨op, ho, hfs⟩ := Program.fields fin.program p.1 (List.mem_map_of_mem hp)
    rw [hfs] at hf
    exact hfull op ho f hf
  have hplaced := forall₂_mem fin.placed
  obtain ⟨js, h1, h2⟩ := fin.directory.saying (force := zw.forceNoZip64) hdd (offs := offs) (hplaced.imp fun p off hp => by
    obtain ⟨hpm, a, x, rest, hout, ha, g⟩ := hp
    refine ⟨⟨x, g⟩, hno p hpm, ?_⟩
    have := congrArg List.length hout
    rw [List.length_append] at this
    omega)
  have h3 : List.Forall₂ (fun l off => OccursAt bytes sigLocal off ∧ OccursAt bytes l.entry.filename.basic (off + 30))
      (ps.map Prod.fst) offs := by
    rw [List.forall₂_map_left_iff]
    refine fin.placed.imp fun p off hp => ?_
    rw [fin.bytes]
    exact hp.header
  exact ⟨js, ⟨h1, by rw [hl, hea]⟩, forall₂_zip h3 h2⟩

/-- C100. In every closed archive, whatever failed, was cancelled or abandoned on the way, and whichever ZIP64 fields the
entries brought along, the record of a streamed entry (unless ZIP64 is forbidden), and of an entry written in one go that fits
the fields of the record, gives the sizes it was written with and the place where it is. Partial: not so for an entry written
in one go that does not fit (`C100_stale`, `C100_large_fails`), nor for one beyond 4 GiB (`C100_lost`, `C100_far_fails`); the extra
fields are truthful, and the ZIP64 fields have the form in which the crate writes them. -/
theorem C100_records_partial (C : Codec) (sink sink' : Sink) (zw : ZipWriter) (h : Created sink zw) (hs : sink.bytes = [])
    (ops : List Op) (evs : List Ev) (hc : (runArchive C zw ops evs).2.1 = .ok sink')
    (hfull : ∀ op ∈ ops, ∀ f ∈ userFields op, FullField f) (hsize : sink'.bytes.length < 2 ^ 64) :
    ∃ ls offs dir stop js, Program C ops (runArchive C zw ops evs).1 ls ∧ ls.length = offs.length ∧
      DirectoryOf sink'.bytes (runArchive C zw ops evs).2.2.isZip64 (archiveComment ops) dir stop js ∧
      List.Forall₂ (fun (q : Listing × Nat) j => OccursAt sink'.bytes sigLocal q.2 ∧
        OccursAt sink'.bytes q.1.entry.filename.basic (q.2 + 30) ∧ Describes32 sink'.bytes j q.1 ∧
        (zw.forceNoZip64 = false → q.1.streamed = true → Declares sink'.bytes j q.1.us.toNat q.1.cs.toNat q.2) ∧
        (q.1.streamed = false → q.1.us.toNat < 0xFFFFFFFF → q.1.cs.toNat < 0xFFFFFFFF → q.2 < 0xFFFFFFFF →
          Declares sink'.bytes j q.1.us.toNat q.1.cs.toNat q.2)) (ls.zip offs) js := by
  obtain ⟨out, ps, offs, cd, z, fin⟩ := finished h hs hc (J := True) (Or.inl trivial)
  obtain ⟨js, h1, h2⟩ := fin.saying hfull hsize
  refine ⟨ps.map Prod.fst, offs, out.length, out.length + cd.length, js, fin.program, ?_, ?_, ?_⟩
  · rw [List.length_map]; exact fin.placed.length_eq
  · rw [← fin.zip]; exact h1
  · exact h2.imp fun q j hq => ⟨hq.1.1, hq.1.2, hq.2.1, hq.2.2.2.1, hq.2.2.2.2.1⟩

/-- C100. The record of a large entry that was written in one go gives the sizes in the first ZIP64 field that the entry brought
along, whatever it was written with; beyond 4 GiB it also gives the place in that field, or none. -/
theorem C100_stale (C : Codec) (sink sink' : Sink) (zw : ZipWriter) (h : Created sink zw) (hs : sink.bytes = [])
    (ops : List Op) (evs : List Ev) (hc : (runArchive C zw ops evs).2.1 = .ok sink')
    (hfull : ∀ op ∈ ops, ∀ f ∈ userFields op, FullField f) (hsize : sink'.bytes.length < 2 ^ 64) :
    ∃ ls offs dir stop js, Program C ops (runArchive C zw ops evs).1 ls ∧ ls.length = offs.length ∧
      DirectoryOf sink'.bytes (runArchive C zw ops evs).2.2.isZip64 (archiveComment ops) dir stop js ∧
      List.Forall₂ (fun (q : Listing × Nat) j => OccursAt sink'.bytes sigLocal q.2 ∧
        OccursAt sink'.bytes q.1.entry.filename.basic (q.2 + 30) ∧ Describes32 sink'.bytes j q.1 ∧
        (LargeWhole q.1 → ∀ z a b, firstZip64 q.1.entry.extraFields = some z → z.uncompressedSize = some a →
          z.compressedSize = some b → ∀ us cs off, Declares sink'.bytes j us cs off →
          us = a.toNat ∧ cs = b.toNat ∧
            off = if q.2 < 0xFFFFFFFF then q.2 else (z.relativeHeaderOffset.getD 0xFFFFFFFF).toNat)) (ls.zip offs) js := by
  obtain ⟨out, ps, offs, cd, z, fin⟩ := finished h hs hc (J := True) (Or.inl trivial)
  obtain ⟨js, h1, h2⟩ := fin.saying hfull hsize
  refine ⟨ps.map Prod.fst, offs, out.length, out.length + cd.length, js, fin.program, ?_, ?_, ?_⟩
  · rw [List.length_map]; exact fin.placed.length_eq
  · rw [← fin.zip]; exact h1
  · refine h2.imp fun q j hq => ⟨hq.1.1, hq.1.2, hq.2.1, fun hl z a b hz ha hb us cs off hd => ?_⟩
    have := hq.2.2.1 hl z hz
    rw [ha, hb] at this
    exact declares_unique hd this

/-- C100. The record of a small entry that was written in one go beyond 4 GiB and brought a ZIP64 field along says that the entry
is where the uncompressed size in that field would be a place. -/
theorem C100_lost (C : Codec) (sink sink' : Sink) (zw : ZipWriter) (h : Created sink zw) (hs : sink.bytes = [])
    (ops : List Op) (evs : List Ev) (hc : (runArchive C zw ops evs).2.1 = .ok sink')
    (hfull : ∀ op ∈ ops, ∀ f ∈ userFields op, FullField f) (hsize : sink'.bytes.length < 2 ^ 64) :
    ∃ ls offs dir stop js, Program C ops (runArchive C zw ops evs).1 ls ∧ ls.length = offs.length ∧
      DirectoryOf sink'.bytes (runArchive C zw ops evs).2.2.isZip64 (archiveComment ops) dir stop js ∧
      List.Forall₂ (fun (q : Listing × Nat) j => OccursAt sink'.bytes sigLocal q.2 ∧
        OccursAt sink'.bytes q.1.entry.filename.basic (q.2 + 30) ∧ Describes32 sink'.bytes j q.1 ∧
        (q.1.streamed = false → q.1.us.toNat < 0xFFFFFFFF → q.1.cs.toNat < 0xFFFFFFFF → 0xFFFFFFFF < q.2 →
          ∀ z a, firstZip64 q.1.entry.extraFields = some z → z.uncompressedSize = some a →
          ∀ us cs off, Declares sink'.bytes j us cs off → us = q.1.us.toNat ∧ cs = q.1.cs.toNat ∧ off = a.toNat))
        (ls.zip offs) js := by
  obtain ⟨out, ps, offs, cd, z, fin⟩ := finished h hs hc (J := True) (Or.inl trivial)
  obtain ⟨js, h1, h2⟩ := fin.saying hfull hsize
  refine ⟨ps.map Prod.fst, offs, out.length, out.length + cd.length, js, fin.program, ?_, ?_, ?_⟩
  · rw [List.length_map]; exact fin.placed.length_eq
  · rw [← fin.zip]; exact h1
  · exact h2.imp fun q j hq => ⟨hq.1.1, hq.1.2, hq.2.1, fun hs hu hc ho z a hz ha us cs off hd =>
      declares_unique hd (hq.2.2.2.2.2 hs hu hc ho z a hz ha)⟩

namespace Samples

/-- An entry of 8 GiB. -/
def hugeEntry : ZipEntry := { deflatedEntry with uncompressedSize := 0x200000000 }

/-- The entry with these extra fields, read from an archive. -/
def hugeRead (fs : List ExtraField) (cs : UInt64) (headerSize : Nat) : StoredZipEntry :=
  { entry := { hugeEntry with compressedSize := cs, extraFields := fs, attributeCompatibility := .unix }
    fileOffset := 0
    headerSize }

/-- The ZIP64 field it is given for this compressed size. -/
def hugeField (cs : UInt64) : ExtraField := .zip64 ⟨1, some 0x200000000, some cs, none, none⟩

/-- The archive of the entry, compressed to three bytes. -/
def hugeBytes : Bytes :=
  [80, 75, 3, 4, 20, 0, 0, 8, 8, 0, 0, 0, 0, 0, 0, 0, 0, 0, 255, 255, 255, 255, 255, 255, 255, 255, 1, 0, 20, 0, 98, 1, 0,
   16, 0, 0, 0, 0, 0, 2, 0, 0, 0, 3, 0, 0, 0, 0, 0, 0, 0, 1, 2, 3, 80, 75, 1, 2, 63, 3, 20, 0, 0, 8, 8, 0, 0, 0, 0, 0, 0, 0,
   0, 0, 255, 255, 255, 255, 255, 255, 255, 255, 1, 0, 20, 0, 0, 0, 0, 0, 0, 0, 0, 0, 164, 1, 0, 0, 0, 0, 98, 1, 0, 16, 0, 0,
   0, 0, 0, 2, 0, 0, 0, 3, 0, 0, 0, 0, 0, 0, 0, 80, 75, 6, 6, 44, 0, 0, 0, 0, 0, 0, 0, 63, 3, 46, 0, 0, 0, 0, 0, 0, 0, 0, 0,
   1, 0, 0, 0, 0, 0, 0, 0, 1, 0, 0, 0, 0, 0, 0, 0, 67, 0, 0, 0, 0, 0, 0, 0, 54, 0, 0, 0, 0, 0, 0, 0, 80, 75, 6, 7, 0, 0, 0, 0,
   121, 0, 0, 0, 0, 0, 0, 0, 1, 0, 0, 0, 80, 75, 5, 6, 0, 0, 0, 0, 1, 0, 1, 0, 67, 0, 0, 0, 54, 0, 0, 0, 0, 0]

/-- The archive of what was read, compressed to five bytes. -/
def hugeAgain : Bytes :=
  [80, 75, 3, 4, 20, 0, 0, 8, 8, 0, 0, 0, 0, 0, 0, 0, 0, 0, 255, 255, 255, 255, 255, 255, 255, 255, 1, 0, 40, 0, 98, 1, 0,
   16, 0, 0, 0, 0, 0, 2, 0, 0, 0, 3, 0, 0, 0, 0, 0, 0, 0, 1, 0, 16, 0, 0, 0, 0, 0, 2, 0, 0, 0, 5, 0, 0, 0, 0, 0, 0, 0, 1, 2,
   3, 4, 5, 80, 75, 1, 2, 63, 3, 20, 0, 0, 8, 8, 0, 0, 0, 0, 0, 0, 0, 0, 0, 255, 255, 255, 255, 255, 255, 255, 255, 1, 0, 40,
   0, 0, 0, 0, 0, 0, 0, 0, 0, 164, 1, 0, 0, 0, 0, 98, 1, 0, 16, 0, 0, 0, 0, 0, 2, 0, 0, 0, 3, 0, 0, 0, 0, 0, 0, 0, 1, 0, 16,
   0, 0, 0, 0, 0, 2, 0, 0, 0, 5, 0, 0, 0, 0, 0, 0, 0, 80, 75, 6, 6, 44, 0, 0, 0, 0, 0, 0, 0, 63, 3, 46, 0, 0, 0, 0, 0, 0, 0,
   0, 0, 1, 0, 0, 0, 0, 0, 0, 0, 1, 0, 0, 0, 0, 0, 0, 0, 87, 0, 0, 0, 0, 0, 0, 0, 76, 0, 0, 0, 0, 0, 0, 0, 80, 75, 6, 7, 0, 0,
   0, 0, 163, 0, 0, 0, 0, 0, 0, 0, 1, 0, 0, 0, 80, 75, 5, 6, 0, 0, 0, 0, 1, 0, 1, 0, 87, 0, 0, 0, 76, 0, 0, 0, 0, 0]

/-- Writing what was read again, compressed to these bytes. -/
def hugeOps (d : Bytes) : List Op := [.whole (hugeRead [hugeField 3] 3 51).entry d true eager]

theorem hugeOps_full (d : Bytes) : ∀ op ∈ hugeOps d, ∀ f ∈ userFields op, FullField f := by
  intro op ho f hf
  rw [List.mem_singleton.1 ho] at hf
  have : f = hugeField 3 := List.mem_singleton.1 hf
  rw [this]
  simp [FullField, hugeField, WellFormed]

theorem huge_runs :
    (runArchive markCodec fresh (hugeOps [1, 2, 3, 4, 5]) eager).1 = [.whole (.ok ())] ∧
    (runArchive markCodec fresh (hugeOps [1, 2, 3, 4, 5]) eager).2.1 = .ok ⟨hugeAgain, 0, 0⟩ := by
  decide +kernel

/-- Streaming what was read again. -/
def hugeStream : List Op :=
  [.stream (hugeRead [hugeField 3] 3 51).entry false eager [.write [7, 8, 9] eager] (.close eager)]

theorem hugeStream_full : ∀ op ∈ hugeStream, ∀ f ∈ userFields op, FullField f := by
  intro op ho f hf
  rw [List.mem_singleton.1 ho] at hf
  have : f = hugeField 3 := List.mem_singleton.1 hf
  rw [this]
  simp [FullField, hugeField, WellFormed]

end Samples

/-- C100 does not hold: an entry of 8 GiB that was compressed to three bytes, written by this crate and read from the archive,
is written to another one, compressed to five bytes. All calls succeed, and the new archive says that there are three. -/
theorem C100_large_fails :
    (runArchive Samples.markCodec Samples.fresh [.whole Samples.hugeEntry [1, 2, 3] true Samples.eager] Samples.eager).2.1 =
      .ok ⟨Samples.hugeBytes, 0, 0⟩ ∧
    (openFile Samples.checkedBuild (Samples.prompt Samples.hugeBytes)).1 =
      .ok (Samples.single (Samples.hugeRead [Samples.hugeField 3] 3 51) true) ∧
    (runArchive Samples.markCodec Samples.fresh
      [.whole (Samples.hugeRead [Samples.hugeField 3] 3 51).entry [1, 2, 3, 4, 5] true Samples.eager] Samples.eager).1 =
      [.whole (.ok ())] ∧
    (runArchive Samples.markCodec Samples.fresh
      [.whole (Samples.hugeRead [Samples.hugeField 3] 3 51).entry [1, 2, 3, 4, 5] true Samples.eager] Samples.eager).2.1 =
      .ok ⟨Samples.hugeAgain, 0, 0⟩ ∧
    (openFile Samples.checkedBuild (Samples.prompt Samples.hugeAgain)).1 =
      .ok (Samples.single (Samples.hugeRead [Samples.hugeField 3, Samples.hugeField 5] 3 71) true) := by
  refine ⟨by decide +kernel, by decide +kernel, by decide +kernel, by decide +kernel, by decide +kernel⟩

/-- `C100_stale` on the archive of `C100_large_fails`. -/
example : ∃ ls offs dir stop js, Program Samples.markCodec (Samples.hugeOps [1, 2, 3, 4, 5]) [.whole (.ok ())] ls ∧
    ls.length = offs.length ∧ DirectoryOf Samples.hugeAgain true [] dir stop js ∧
    List.Forall₂ (fun (q : Listing × Nat) j => OccursAt Samples.hugeAgain sigLocal q.2 ∧
      OccursAt Samples.hugeAgain q.1.entry.filename.basic (q.2 + 30) ∧ Describes32 Samples.hugeAgain j q.1 ∧
      (LargeWhole q.1 → ∀ z a b, firstZip64 q.1.entry.extraFields = some z → z.uncompressedSize = some a →
        z.compressedSize = some b → ∀ us cs off, Declares Samples.hugeAgain j us cs off →
        us = a.toNat ∧ cs = b.toNat ∧
          off = if q.2 < 0xFFFFFFFF then q.2 else (z.relativeHeaderOffset.getD 0xFFFFFFFF).toNat)) (ls.zip offs) js := by
  have h := C100_stale Samples.markCodec ⟨[], 0, 0⟩ ⟨Samples.hugeAgain, 0, 0⟩ Samples.fresh .new rfl
    (Samples.hugeOps [1, 2, 3, 4, 5]) Samples.eager Samples.huge_runs.2 (Samples.hugeOps_full _) (by decide +kernel)
  rw [Samples.huge_runs.1, show (runArchive Samples.markCodec Samples.fresh (Samples.hugeOps [1, 2, 3, 4, 5]) Samples.eager).2.2.isZip64 =
    true by decide +kernel] at h
  exact h

/-- The one entry in it is large, and brought a ZIP64 field with other sizes along. -/
example : LargeWhole ⟨(Samples.hugeRead [Samples.hugeField 3] 3 51).entry, false, 0, 0x200000000, [1, 2, 3, 4, 5]⟩ ∧
    firstZip64 (Samples.hugeRead [Samples.hugeField 3] 3 51).entry.extraFields =
      some ⟨1, some 0x200000000, some 3, none, none⟩ := by
  refine ⟨⟨rfl, Or.inl (by decide)⟩, rfl⟩

/-- `C100_records_partial` where it is streamed instead. -/
example (sink' : Sink) (h : (runArchive Samples.markCodec Samples.fresh Samples.hugeStream Samples.eager).2.1 = .ok sink')
    (hsize : sink'.bytes.length < 2 ^ 64) :=
  C100_records_partial Samples.markCodec ⟨[], 0, 0⟩ sink' Samples.fresh .new rfl Samples.hugeStream Samples.eager h
    Samples.hugeStream_full hsize

example : ∃ sink', (runArchive Samples.markCodec Samples.fresh Samples.hugeStream Samples.eager).2.1 = .ok sink' ∧
    sink'.bytes.length < 2 ^ 64 ∧
    (runArchive Samples.markCodec Samples.fresh Samples.hugeStream Samples.eager).1 = [.stream (.ok ()) [.ok 3] (some (.ok ()))] := by
  have h : ((runArchive Samples.markCodec Samples.fresh Samples.hugeStream Samples.eager).2.1.toOption.map
      fun s => decide (s.bytes.length < 1000)) = some true := by decide +kernel
  cases hr : (runArchive Samples.markCodec Samples.fresh Samples.hugeStream Samples.eager).2.1 with
  | error e => rw [hr] at h; cases h
  | ok s =>
    rw [hr] at h
    refine ⟨s, rfl, ?_, by decide +kernel⟩
    have : s.bytes.length < 1000 := by simpa [Except.toOption] using h
    omega

/-- C100 does not hold for small entries either: one that was streamed to an archive and read from it (`C48_twice_fails`) is
written to another, behind more than 4 GiB. The calls succeed, and the directory says that it is at 3. -/
theorem C100_far_fails (C : Codec) (d : Bytes) (hd : 0xFFFFFFFF < d.length) (hl : d.length < 2 ^ 63) :
    (openFile Samples.checkedBuild (Samples.prompt Samples.streamedBytes)).1 = .ok (Samples.single Samples.firstRead true) ∧
    ∃ evs₁ evs₂ evs sink' dir stop j₁ j₂ off,
      (runArchive C Samples.fresh [.whole Samples.storedEntry d false evs₁,
        .whole Samples.firstRead.entry [1, 7, 1, 8, 1, 9, 0] true evs₂] evs).1 = [.whole (.ok ()), .whole (.ok ())] ∧
      (runArchive C Samples.fresh [.whole Samples.storedEntry d false evs₁,
        .whole Samples.firstRead.entry [1, 7, 1, 8, 1, 9, 0] true evs₂] evs).2.1 = .ok sink' ∧
      DirectoryOf sink'.bytes true [] dir stop [j₁, j₂] ∧ 0xFFFFFFFF < off ∧ OccursAt sink'.bytes sigLocal off ∧
      OccursAt sink'.bytes [98] (off + 30) ∧ Declares sink'.bytes j₂ 3 7 3 := by
  refine ⟨C48_twice_fails.2.1, ?_⟩
  obtain ⟨n₁, w₁⟩ := C52_completes C Samples.fresh rfl Samples.storedEntry d false ⟨by decide, by decide⟩ 0
  obtain ⟨n₂, w₂⟩ := C52_completes C
    (runOp C Samples.fresh (.whole Samples.storedEntry d false (List.replicate n₁ (.accept 1)))).2 ((runOp_ext C _ _).force)
    Samples.firstRead.entry [1, 7, 1, 8, 1, 9, 0] true ⟨by decide, by decide⟩ 0
  refine ⟨List.replicate n₁ (.accept 1), List.replicate n₂ (.accept 1), ?_⟩
  generalize hops : [Op.whole Samples.storedEntry d false (List.replicate n₁ (.accept 1)),
    Op.whole Samples.firstRead.entry [1, 7, 1, 8, 1, 9, 0] true (List.replicate n₂ (.accept 1))] = ops
  have hres : ∀ evs, (runArchive C Samples.fresh ops evs).1 = [.whole (.ok ()), .whole (.ok ())] := by
    intro evs
    rw [← hops]
    exact two_whole w₁ w₂
  obtain ⟨n, sink', hc⟩ := close_succeeds C ⟨[], 0, 0⟩ Samples.fresh .new ops (fun h => by cases h.2) 0
  have hcom : archiveComment ops = [] := by rw [← hops]; rfl
  have hfull : ∀ op ∈ ops, ∀ f ∈ userFields op, FullField f := by
    rw [← hops]
    intro op ho f hf
    rcases List.mem_cons.1 ho with rfl | ho
    · cases hf
    · rw [List.mem_singleton.1 ho] at hf
      have : f = .zip64 ⟨1, some 3, some 7, some 0, none⟩ := List.mem_singleton.1 hf
      rw [this]
      simp [FullField, WellFormed]
  obtain ⟨out, ps, offs, cd, z, fin⟩ := finished (zw := Samples.fresh) .new rfl hc (J := False)
    (Or.inr fun r hr => by
      rw [hres] at hr
      simp only [List.mem_cons, List.not_mem_nil, or_false, or_self] at hr
      rw [hr]
      exact Or.inl rfl)
  have hprog := fin.program
  have hlaid := fin.laid
  rw [hres, ← hops] at hprog
  generalize hls : ps.map Prod.fst = ls at hprog
  cases hprog with
  | other h _ => exact absurd (Or.inl rfl) h
  | @listed _ _ _ _ l₁ _ a₁ hprog =>
  cases hprog with
  | other h _ => exact absurd (Or.inl rfl) h
  | @listed _ _ _ _ l₂ _ a₂ hprog =>
  cases hprog
  obtain ⟨p₁, qs, rfl, hp₁, hqs⟩ := List.map_eq_cons_iff.1 hls
  obtain ⟨p₂, qs, rfl, hp₂, hqs⟩ := List.map_eq_cons_iff.1 hqs
  rw [List.map_eq_nil_iff] at hqs
  subst hqs
  cases hlaid with
  | @cons _ off₁ _ _ _ _ y₁ x₁ r₁ b₁ t₁ o₁ k₁ g₁ hlaid =>
  cases hlaid with
  | @cons _ off₂ _ _ _ _ y₂ x₂ r₂ b₂ t₂ o₂ k₂ g₂ hlaid =>
  cases hlaid with
  | nil b₃ t₃ =>
  have hst : p₁.1.stored = d ∧ p₁.1.streamed = false := by
    rw [hp₁]
    cases a₁ with
    | whole _ _ _ _ stored _ hs =>
      rcases hs with ⟨_, rfl⟩ | ⟨h, _⟩
      · exact ⟨rfl, rfl⟩
      · exact absurd rfl h
  have hst₂ : p₂.1 = ⟨Samples.firstRead.entry, false, Samples.firstRead.entry.crc32, 3, [1, 7, 1, 8, 1, 9, 0]⟩ := by
    rw [hp₂]
    cases a₂ with
    | wholePre _ _ _ _ _ => rfl
  obtain ⟨m₁, m₂⟩ := g₁.span hst.2
  obtain ⟨m₃, m₄⟩ := g₂.span (by rw [hst₂])
  rw [hst.1] at m₁ m₂
  rw [hst₂] at m₃ m₄
  have e₁ := t₁ id
  have e₂ := t₂ id
  have e₃ := t₃ id
  have hbd := fin.bound
  rw [hcom] at hbd
  simp only [List.length_cons, List.length_nil] at hbd m₃ m₄
  obtain ⟨js, h1, h2⟩ := fin.saying hfull (by omega)
  rw [hcom, fin.far (by omega)] at h1
  cases h2 with
  | @cons _ j₁ _ js q₁ h2 =>
  cases h2 with
  | @cons _ j₂ _ js q₂ h2 =>
  cases h2
  refine ⟨_, sink', _, _, j₁, j₂, off₂, hres _, hc, h1, by omega, q₂.1.1, ?_, ?_⟩
  · have := q₂.1.2
    simp only [hst₂] at this
    exact this
  · have := q₂.2.2.2.2.2
    simp only [hst₂] at this
    exact this trivial (by decide) (by decide) (by omega) ⟨1, some 3, some 7, some 0, none⟩ 3 rfl rfl

/-- There is such data. -/
example : ∃ d : Bytes, 0xFFFFFFFF < d.length ∧ d.length < 2 ^ 63 :=
  ⟨List.replicate (2 ^ 32) 0, by rw [List.length_replicate]; decide, by rw [List.length_replicate]; decide⟩

/-- `C100_lost` on the archive of `C100_far_fails`. -/
example (C : Codec) (d : Bytes) (hd : 0xFFFFFFFF < d.length) (hl : d.length < 2 ^ 61) : ∃ evs₁ evs₂ evs sink',
    (runArchive C Samples.fresh [.whole Samples.storedEntry d false evs₁,
      .whole Samples.firstRead.entry [1, 7, 1, 8, 1, 9, 0] true evs₂] evs).2.1 = .ok sink' ∧
    (sink'.bytes.length < 2 ^ 64 → ∃ (ls : List Listing) (offs : List Nat) (dir stop : Nat) (js : List Nat), ls.length = offs.length ∧
      DirectoryOf sink'.bytes (runArchive C Samples.fresh [.whole Samples.storedEntry d false evs₁,
        .whole Samples.firstRead.entry [1, 7, 1, 8, 1, 9, 0] true evs₂] evs).2.2.isZip64 [] dir stop js ∧
      List.Forall₂ (fun (q : Listing × Nat) j => OccursAt sink'.bytes sigLocal q.2 ∧ Describes32 sink'.bytes j q.1) (ls.zip offs) js) := by
  obtain ⟨_, evs₁, evs₂, evs, sink', _, _, _, _, _, _, hc, _⟩ := C100_far_fails C d hd (by omega)
  refine ⟨evs₁, evs₂, evs, sink', hc, fun hsize => ?_⟩
  obtain ⟨ls, offs, dir, stop, js, _, h2, h3, h4⟩ := C100_lost C ⟨[], 0, 0⟩ sink' Samples.fresh .new rfl
    [.whole Samples.storedEntry d false evs₁, .whole Samples.firstRead.entry [1, 7, 1, 8, 1, 9, 0] true evs₂] evs hc
    (by
      intro op ho f hf
      rcases List.mem_cons.1 ho with rfl | ho
      · cases hf
      · rw [List.mem_singleton.1 ho] at hf
        have : f = .zip64 ⟨1, some 3, some 7, some 0, none⟩ := List.mem_singleton.1 hf
        rw [this]
        simp [FullField, WellFormed]) hsize
  exact ⟨ls, offs, dir, stop, js, h2, h3, h4.imp fun q j hq => ⟨hq.1, hq.2.2.1⟩⟩

end AsyncZip
