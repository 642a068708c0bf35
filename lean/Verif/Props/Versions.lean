import Verif.Spec.Versions
import Verif.Props.Entries
import Verif.Props.Metadata
/-!
# C56: versions
-/

namespace AsyncZip
open Spec Rd

/-- The records of a directory, one after the other. -/
theorem Directory.records {force : Bool} {data : Bytes} : ∀ {ps : List (Listing × CdEntry)} {cd : Bytes} {offs : List Nat}
    {rest : Bytes} {j : Nat}, Directory (ps.map Prod.snd) cd → data.drop j = cd ++ rest →
    List.Forall₂ (fun (p : Listing × CdEntry) off => (∃ x, Good force off x p.1 p.2) ∧ NoZip64 p.1.entry.extraFields) ps offs →
    ∃ js, Positions data j js (j + cd.length) ∧ List.Forall₂ (fun (p : Listing × CdEntry) i => ∃ extra rest,
      data.drop i = recordBytes p.2.header p.2.entry.filename.basic extra p.2.entry.comment.basic ++ rest) ps js := by
  intro ps
  induction ps with
  | nil =>
    intro cd offs rest j hdir _ _
    cases hdir
    exact ⟨[], .nil j, .nil⟩
  | cons p ps ih =>
    intro cd offs rest j hdir hd hall
    cases hall with
    | cons h1 hall =>
      obtain ⟨⟨x, g⟩, h2⟩ := h1
      rw [List.map_cons] at hdir
      cases hdir with
      | @cons _ _ extra bs hx hdir =>
        rw [List.append_assoc] at hd
        obtain ⟨k1, k2, k3, k4⟩ := g.record h2 hx hd
        obtain ⟨js, i1, i2⟩ := ih hdir (drop_append_of_drop hd rfl) hall
        refine ⟨j :: js, .cons j js _ k1 ?_, .cons ⟨extra, _, hd⟩ i2⟩
        rw [k2, List.length_append, ← Nat.add_assoc]
        exact i1

theorem cdr_versions {data extra name comment rest : Bytes} {j : Nat} {h : CentralDirectoryRecord}
    (hd : data.drop j = recordBytes h name extra comment ++ rest) :
    fieldAt data (j + 4) 2 = h.vMadeBy.toNat ∧ fieldAt data (j + 6) 2 = h.vNeeded.toNat := by
  rw [recordBytes] at hd
  simp only [List.append_assoc] at hd
  have h1 := drop_append_of_drop hd (le32_length _)
  have hb := (take_of_drop h1 (cdr_length h)).symm
  have r16 := fun i hi => (read16 hb (cdr_length h) i hi).symm
  have e := cdr_ofBytes_asSlice h
  exact ⟨(r16 0 (by omega)).trans (congrArg (fun x => x.vMadeBy.toNat) e),
    (r16 2 (by omega)).trans (congrArg (fun x => x.vNeeded.toNat) e)⟩

theorem lfh_version {data rest : Bytes} {j : Nat} {h : LocalFileHeader} (hd : data.drop j = le32 LFH_SIGNATURE ++ (h.asSlice ++ rest)) :
    fieldAt data (j + 4) 2 = h.version.toNat := by
  have h1 := drop_append_of_drop hd (le32_length _)
  have hb := (take_of_drop h1 (lfh_length h)).symm
  exact (read16 hb (lfh_length h) 0 (by omega)).symm.trans (congrArg (fun x => x.version.toNat) (lfh_ofBytes_asSlice h))

/-- The two versions in the ZIP64 end record. -/
theorem zip64_versions (out cd : Bytes) (n : Nat) (comment : Bytes) :
    fieldAt (archiveBytes out cd true n comment) (out.length + cd.length + 12) 2 = unixMadeBy ∧
    fieldAt (archiveBytes out cd true n comment) (out.length + cd.length + 14) 2 = 46 := by
  have hd : (archiveBytes out cd true n comment).drop (out.length + cd.length) = endBytes true n cd.length out.length comment := by
    rw [← List.drop_drop, archive_drop_cd, List.drop_left' rfl]
  generalize archiveBytes out cd true n comment = data at hd
  rw [endBytes, if_pos rfl, zip64EndBytes] at hd
  simp only [List.append_assoc] at hd
  have h1 := drop_append_of_drop hd (le32_length _)
  have hb := (take_of_drop h1 (z64eocdr_length _)).symm
  have r16 := fun i hi => (read16 hb (z64eocdr_length _) i hi).symm
  exact ⟨(r16 8 (by omega)).trans (congrArg (fun x => x.versionMadeBy.toNat) (z64eocdr_ofBytes_asBytes _)),
    (r16 10 (by omega)).trans (congrArg (fun x => x.versionNeeded.toNat) (z64eocdr_ofBytes_asBytes _))⟩

/-- C56. In every closed archive, whatever failed, was cancelled or abandoned on the way, every directory record says that a
Unix system following specification 6.3 made it, and it and the local header agree on a version needed that does for the
method and the directory feature; and so does a ZIP64 end record, which demands at least 4.5. Partial: directories whose name
is not UTF-8 (`C14_raw_directory_fails`), and see `C56_zip64_fails` for entries with a ZIP64 field. -/
theorem C56_versions_partial (C : Codec) (sink sink' : Sink) (zw : ZipWriter) (h : Created sink zw) (hs : sink.bytes = [])
    (ops : List Op) (evs : List Ev) (hc : (runArchive C zw ops evs).2.1 = .ok sink')
    (hown : ∀ op ∈ ops, NoZip64 (userFields op)) :
    ∃ ls offs dir stop js, Program C ops (runArchive C zw ops evs).1 ls ∧ ls.length = offs.length ∧
      DirectoryOf sink'.bytes (runArchive C zw ops evs).2.2.isZip64 (archiveComment ops) dir stop js ∧
      List.Forall₂ (fun (q : Listing × Nat) j => OccursAt sink'.bytes sigLocal q.2 ∧
        Versioned sink'.bytes q.2 j q.1.entry) (ls.zip offs) js ∧
      ((runArchive C zw ops evs).2.2.isZip64 = true → OccursAt sink'.bytes sigZip64End stop ∧
        fieldAt sink'.bytes (stop + 12) 2 = unixMadeBy ∧ 45 ≤ fieldAt sink'.bytes (stop + 14) 2) := by
  obtain ⟨out, ps, offs, cd, z, fin⟩ := finished h hs hc (J := True) (Or.inl trivial)
  have hb := fin.bytes
  rw [commentBytes_eq] at hb
  have hl := archive_length out cd z ps.length (archiveComment ops)
  rw [← hb] at hl
  have hea : endAt out cd z = out.length + cd.length + if z = true then 76 else 0 := rfl
  have hdd := archive_drop_cd out cd z ps.length (archiveComment ops)
  rw [← hb] at hdd
  have hno : ∀ p ∈ ps, NoZip64 p.1.entry.extraFields := by
    intro p hp
    obtain ⟨op, ho, hfs⟩ := Program.fields fin.program p.1 (List.mem_map_of_mem hp)
    rw [hfs]
    exact hown op ho
  obtain ⟨js, h1, h2⟩ := fin.directory.records (force := zw.forceNoZip64) hdd (offs := offs)
    ((forall₂_mem fin.placed).imp fun p off hp => by
      obtain ⟨hpm, a, x, rest, hout, ha, g⟩ := hp
      exact ⟨⟨x, g⟩, hno p hpm⟩)
  have hbytes := fin.bytes
  generalize hN : ps.length = N at hbytes
  rw [← fin.zip]
  refine ⟨ps.map Prod.fst, offs, out.length, out.length + cd.length, js, fin.program, ?_, ⟨h1, by rw [hl, hea]⟩, ?_, fun hz => ?_⟩
  · rw [List.length_map]; exact fin.placed.length_eq
  · have hzip : ∀ {ps : List (Listing × CdEntry)} {offs js : List Nat},
        List.Forall₂ (fun p off => At zw.forceNoZip64 out p off) ps offs →
        List.Forall₂ (fun (p : Listing × CdEntry) i => ∃ extra rest, sink'.bytes.drop i =
          recordBytes p.2.header p.2.entry.filename.basic extra p.2.entry.comment.basic ++ rest) ps js →
        List.Forall₂ (fun (q : Listing × Nat) j => OccursAt sink'.bytes sigLocal q.2 ∧
          Versioned sink'.bytes q.2 j q.1.entry) ((ps.map Prod.fst).zip offs) js := by
      intro ps offs js hp
      induction hp generalizing js with
      | nil => intro hr; cases hr; exact .nil
      | @cons p off ps offs hat _ ih =>
        intro hr
        cases hr with
        | cons hr1 hr =>
          refine .cons ⟨?_, ?_⟩ (ih hr)
          · rw [hbytes]; exact hat.header.1
          · obtain ⟨extra, rest, hr1⟩ := hr1
            obtain ⟨v1, v2⟩ := cdr_versions hr1
            obtain ⟨a, x, rest', hout, ha, g⟩ := hat
            obtain ⟨hd, fs, xb, hloc, _, hx⟩ := g.bytes
            have h0 : sink'.bytes.drop off = le32 LFH_SIGNATURE ++ (hd.asSlice ++ (p.1.entry.filename.basic ++ (xb ++ (p.1.stored ++
                (tailBytes zw.forceNoZip64 p.1 ++ (rest' ++ (cd ++ endBytes z N cd.length out.length
                  (commentBytes (finalComment none ops))))))))) := by
              rw [hbytes, archiveBytes, hout, List.append_assoc, List.drop_append_of_le_length (Nat.le_of_eq ha.symm), ← ha,
                List.drop_length, List.nil_append, hx, localBytes]
              simp only [List.append_assoc]
            have v3 := lfh_version h0
            obtain ⟨c1, c2, c3, c4, c5⟩ := C14_version_needed_partial p.1.entry
            rw [← g.describes.needed, ← v2] at c1 c2 c3 c4
            exact ⟨by rw [v1, g.describes.madeBy]; rfl, by rw [v3, v2, hloc.version], c1, c2, c3,
              fun hu hn => by rw [c4 hu hn]; omega⟩
    exact hzip fin.placed h2
  · obtain ⟨z1, z2⟩ := zip64_versions out cd ps.length (archiveComment ops)
    rw [← hz, ← hb] at z1 z2
    refine ⟨?_, z1, by rw [z2]; decide⟩
    have hd : (archiveBytes out cd true ps.length (archiveComment ops)).drop (out.length + cd.length) =
        endBytes true ps.length cd.length out.length (archiveComment ops) := by
      rw [← List.drop_drop, archive_drop_cd, List.drop_left' rfl]
    rw [hb, hz]
    rw [endBytes, if_pos rfl, zip64EndBytes] at hd
    simp only [List.append_assoc] at hd
    have := occurs_of_drop hd
    rwa [show le32 ZIP64_EOCDR_SIGNATURE = sigZip64End by decide] at this

/-- On the sample program, whose archive is a ZIP64 one: both records and the end record. -/
example : ∃ ls offs dir stop js, ls.length = 2 ∧ Program Samples.markCodec Samples.program
      (runArchive Samples.markCodec Samples.fresh Samples.program Samples.eager).1 ls ∧
    DirectoryOf Samples.programBytes true (archiveComment Samples.program) dir stop js ∧
    List.Forall₂ (fun (q : Listing × Nat) j => Versioned Samples.programBytes q.2 j q.1.entry) (ls.zip offs) js := by
  obtain ⟨ls, offs, dir, stop, js, h1, h2, h3, h4, h5⟩ := C56_versions_partial Samples.markCodec ⟨[], 0, 0⟩
    ⟨Samples.programBytes, 1, 0⟩ Samples.fresh .new rfl Samples.program Samples.eager Samples.program_archive.2.1
    (fun op ho f hf => (Samples.program_legible.own op ho f hf).1)
  rw [Samples.program_archive.2.2] at h3
  refine ⟨ls, offs, dir, stop, js, ?_, h1, h3, h4.imp fun _ _ h => h.2⟩
  rw [Program.count h1, Samples.program_archive.1]
  decide

/-- C56 as written does not hold for entries with a ZIP64 field: a reader that knows version 2.0 is told that it can extract
this streamed entry, whose sizes and offset it would take for 4 GiB - 1. -/
theorem C56_zip64_fails :
    (runArchive Samples.markCodec Samples.fresh Samples.streamOne Samples.eager).2.1 = .ok ⟨Samples.streamedBytes, 0, 0⟩ ∧
    OccursAt Samples.streamedBytes sigCentral 74 ∧ HasZip64 Samples.streamedBytes 74 ∧
    fieldAt Samples.streamedBytes (74 + 6) 2 = 20 ∧ fieldAt Samples.streamedBytes (74 + 20) 4 = 0xFFFFFFFF := by
  refine ⟨Samples.streamed_archive.2, by decide +kernel, ⟨_, blocks_one (by decide +kernel) (by decide +kernel) rfl, _,
    List.mem_singleton_self _, by decide +kernel⟩, by decide +kernel, by decide +kernel⟩

end AsyncZip
