import Verif.Proofs.Independent
import Verif.Props.Directory
import Verif.Props.Fields
import Verif.Props.Entries
/-!
# C83: other software reads what was written
-/

namespace AsyncZip
open Spec Rd

theorem declared_min {data : Bytes} {j off w off' w' n : Nat} (hc : fieldAt data (j + off) w = min n (256 ^ w - 1))
    (hz : HasLocator data j → fieldAt data (zip64End data j + off') w' = n) (hn : ¬ HasLocator data j → n ≤ 256 ^ w - 1) :
    declared data j off w off' w' = n := by
  unfold declared
  by_cases hl : HasLocator data j
  · by_cases he : n < 256 ^ w - 1
    · rw [if_neg (fun h => by rw [hc, Nat.min_eq_left (by omega)] at h; omega), hc, Nat.min_eq_left (by omega)]
    · rw [if_pos ⟨hl, by rw [hc, Nat.min_eq_right (by omega)]⟩, hz hl]
  · rw [if_neg (fun h => hl h.1), hc, Nat.min_eq_left (hn hl)]

/-- Where the end records are, whatever the extra fields. -/
theorem Finished.endRecords {C : Codec} {zw : ZipWriter} {ops : List Op} {evs : List Ev}
    {bytes out cd : Bytes} {J : Prop} {ps : List (Listing × CdEntry)} {offs : List Nat} {z : Bool}
    (fin : Finished C zw ops evs bytes J out ps offs cd z) (hsize : bytes.length < 2 ^ 64) :
    bytes.length = out.length + cd.length + (if z = true then 76 else 0) + 22 + (archiveComment ops).length ∧
      ((archiveComment ops).length ≤ 65535 →
        EndAt bytes (endPosition bytes (archiveComment ops)) ps.length cd.length out.length (archiveComment ops)) ∧
      (z = true → Zip64EndAt bytes (out.length + cd.length) ps.length cd.length out.length) := by
  have hb := fin.bytes
  rw [commentBytes_eq] at hb
  have hl := archive_length out cd z ps.length (archiveComment ops)
  rw [← hb] at hl
  have hea : endAt out cd z = out.length + cd.length + if z = true then 76 else 0 := rfl
  refine ⟨by rw [hl, hea], fun hcom => ?_, fun hz => ?_⟩
  · have := end_at out cd z ps.length (archiveComment ops) hcom
    rw [← hb] at this
    rwa [show endPosition bytes (archiveComment ops) = endAt out cd z by unfold endPosition; omega]
  · have := zip64_at out cd ps.length (archiveComment ops) (by
      have := fin.directory.length
      rw [List.length_map] at this
      omega) (by omega)
    rw [← hz, ← hb] at this
    exact this

/-- The end records, to the independent reader. -/
theorem Finished.declares_of {C : Codec} {sink : Sink} {zw : ZipWriter} {ops : List Op} {evs : List Ev}
    {bytes out cd : Bytes} {J : Prop} {ps : List (Listing × CdEntry)} {offs : List Nat} {z : Bool}
    (fin : Finished C zw ops evs bytes J out ps offs cd z) (h : Created sink zw)
    (hleg : Closing ops (runArchive C zw ops evs).1 (runArchive C zw ops evs).2.2.isZip64 bytes)
    (hdir : z = false → cd.length ≤ 0xFFFFFFFF) :
    let j := endPosition bytes (archiveComment ops)
    declaredDisk bytes j = 0 ∧ declaredStartDisk bytes j = 0 ∧ declaredEntriesOnDisk bytes j = ps.length ∧
      declaredEntries bytes j = ps.length ∧ declaredOffset bytes j = out.length ∧ declaredSize bytes j = cd.length ∧
      directoryEnd bytes j = some (out.length + cd.length) ∧
      j + 22 + fieldAt bytes (j + 20) 2 = bytes.length ∧ bytes.drop (j + 22) = archiveComment ops ∧ j < bytes.length := by
  obtain ⟨hcom, hlast, hloc, hcount, hsize⟩ := hleg
  rw [← fin.zip] at hloc
  obtain ⟨hl, d4, d5⟩ := fin.endRecords hsize
  obtain ⟨e1, e2, e3, e4, e5, e6⟩ := d4 hcom
  intro j
  have hj : j = out.length + cd.length + if z = true then 76 else 0 := by
    show bytes.length - _ = _
    omega
  have hn : z = false → ps.length ≤ 0xFFFF := by
    intro hz
    cases hf : zw.forceNoZip64 with
    | true =>
      obtain ⟨_, he, _⟩ := Created.facts h
      have := runOps_tooMany C ops zw hf (by rw [he]; exact Nat.zero_le _) hcount
      rwa [fin.entries, List.length_map] at this
    | false =>
      refine Nat.not_lt.1 fun hb => ?_
      rw [fin.count hf hb] at hz
      cases hz
  have ho : z = false → out.length ≤ 0xFFFFFFFF := by
    intro hz
    refine Nat.not_lt.1 fun hb => ?_
    rw [fin.far hb] at hz
    cases hz
  have hk : (HasLocator bytes j → z = true) ∧ (z = true → HasLocator bytes j ∧ zip64End bytes j = out.length + cd.length) := by
    refine ⟨hloc, fun hz => ?_⟩
    rw [if_pos hz] at hj
    have z7 := (d5 hz).locator
    have z8 := (d5 hz).points
    refine ⟨⟨by omega, by rw [hj, Nat.add_sub_assoc (by decide)]; exact z7⟩, ?_⟩
    unfold zip64End
    rw [hj, show out.length + cd.length + 76 - 20 = out.length + cd.length + 56 by omega]
    exact z8
  have hz : ∀ {off v : Nat} {w : Nat}, (Zip64EndAt bytes (out.length + cd.length) ps.length cd.length out.length →
      fieldAt bytes (out.length + cd.length + off) w = v) → HasLocator bytes j → fieldAt bytes (zip64End bytes j + off) w = v := by
    intro off v w hv hl
    rw [(hk.2 (hk.1 hl)).2]
    exact hv (d5 (hk.1 hl))
  have hf : ¬ HasLocator bytes j → z = false := by
    intro hl
    cases hz : z with
    | false => rfl
    | true => exact absurd (hk.2 hz).1 hl
  refine ⟨declared_min (e2.1.trans (Nat.zero_min _).symm) (hz fun q => q.disk.1) fun _ => Nat.zero_le _,
    declared_min (e2.2.trans (Nat.zero_min _).symm) (hz fun q => q.disk.2) fun _ => Nat.zero_le _,
    declared_min e3.1 (hz fun q => q.entries.1) fun hl => hn (hf hl),
    declared_min e3.2 (hz fun q => q.entries.2) fun hl => hn (hf hl),
    declared_min e5 (hz fun q => q.offset) fun hl => ho (hf hl),
    declared_min e4 (hz fun q => q.size) fun hl => hdir (hf hl), ?_, ?_, e6.2, ?_⟩
  · unfold directoryEnd
    split
    · rename_i hl
      have hz := hk.1 hl
      obtain ⟨z1, z2, _⟩ := d5 hz
      rw [(hk.2 hz).2, z2, if_pos ⟨z1, Nat.le_refl _, by rw [hj, if_pos hz]⟩]
    · rename_i hl
      rw [hj, if_neg (by rw [hf hl]; decide), Nat.add_zero]
  · show j + 22 + fieldAt bytes (endPosition bytes (archiveComment ops) + 20) 2 = _
    rw [e6.1]
    omega
  · omega

theorem Finished.declares {C : Codec} {sink : Sink} {zw : ZipWriter} {ops : List Op} {evs : List Ev}
    {bytes out cd : Bytes} {J : Prop} {ps : List (Listing × CdEntry)} {offs : List Nat} {z : Bool}
    (fin : Finished C zw ops evs bytes J out ps offs cd z) (h : Created sink zw)
    (hleg : Legible ops (runArchive C zw ops evs).1 (runArchive C zw ops evs).2.2.isZip64 bytes)
    (hdir : z = false → cd.length ≤ 0xFFFFFFFF) :
    let j := endPosition bytes (archiveComment ops)
    declaredDisk bytes j = 0 ∧ declaredStartDisk bytes j = 0 ∧ declaredEntriesOnDisk bytes j = ps.length ∧
      declaredEntries bytes j = ps.length ∧ declaredOffset bytes j = out.length ∧ declaredSize bytes j = cd.length ∧
      directoryEnd bytes j = some (out.length + cd.length) ∧
      j + 22 + fieldAt bytes (j + 20) 2 = bytes.length ∧ bytes.drop (j + 22) = archiveComment ops ∧ j < bytes.length :=
  fin.declares_of h ⟨hleg.comment, hleg.last, hleg.locator, hleg.count, hleg.size⟩ hdir

/-- C83. Software that goes by the ZIP specification and nothing else reads every archive that says what it means (`Legible`):
it gets every listed entry, in order, with its name, comment, method, date, checksum, sizes, attributes and stored bytes, and
the comment of the archive; local headers and directory agree; directory, end records and comment fill the file to its end.
Partial: `Legible` and `Clash` as in C41; archives of 4 GiB or more that are not ZIP64, whose directory may be too long for its
size to be recorded; and, with `force_no_zip64`, streams, whose sizes are recorded the wrong way round. -/
theorem C83_independent_partial (C : Codec) (sink sink' : Sink) (zw : ZipWriter) (h : Created sink zw) (hs : sink.bytes = [])
    (ops : List Op) (evs : List Ev) (hc : (runArchive C zw ops evs).2.1 = .ok sink')
    (hleg : Legible ops (runArchive C zw ops evs).1 (runArchive C zw ops evs).2.2.isZip64 sink'.bytes)
    (hlong : (runArchive C zw ops evs).2.2.isZip64 = false → sink'.bytes.length ≤ 0xFFFFFFFF) :
    ∃ ls offs, Program C ops (runArchive C zw ops evs).1 ls ∧
      List.Forall₂ (fun _ off => OccursAt sink'.bytes sigLocal off) ls offs ∧
      (List.Forall₂ (fun l off => ¬ Clash off l) ls offs →
        (∀ l ∈ ls, l.recorded zw.forceNoZip64 = (l.us, l.cs)) →
        ∃ is, independent sink'.bytes = some (is, archiveComment ops) ∧ List.Forall₂ Shows ls is) := by
  obtain ⟨out, ps, offs, cd, z, fin⟩ := finished h hs hc (J := True) (Or.inl trivial)
  refine ⟨ps.map Prod.fst, offs, fin.program, fin.signatures, fun hcl hsw => ?_⟩
  rw [List.forall₂_map_left_iff] at hcl
  have hb := fin.bytes
  rw [commentBytes_eq] at hb
  have hdd := archive_drop_cd out cd z ps.length (archiveComment ops)
  rw [← hb] at hdd
  obtain ⟨d1, d2, d3, d4, d5, d6, d7, d8, d9, d10⟩ := fin.declares h hleg fun hz => by
    have := hlong (by rw [← fin.zip]; exact hz)
    have hl := congrArg List.length hdd
    rw [List.length_drop, List.length_append] at hl
    omega
  obtain ⟨is, i1, i2⟩ := Directory.items (y := cd ++ endBytes z ps.length cd.length out.length (archiveComment ops)) hb
    hleg.size fin.directory hdd fin.placed (fin.own hleg.own) (fun p hp => hsw _ (List.mem_map_of_mem hp)) hcl
  refine ⟨is, ?_, i2⟩
  unfold independent
  rw [lastEndBelow_of hleg.last d10]
  simp only
  rw [if_pos ⟨d1, d2, d3.trans d4.symm, by rw [d5, d6, d7], d8⟩, d4, d5, d6, i1, d9]
  rfl

theorem Program.recorded {C : Codec} {force : Bool} {ops : List Op} {rs : List OpResult} {ls : List Listing}
    (h : Program C ops rs ls) (hx : force = true → ∀ op ∈ ops, ¬ Exchanged op) :
    ∀ l ∈ ls, l.recorded force = (l.us, l.cs) := by
  induction h with
  | nil => intro l hl; cases hl
  | listed ha _ ih =>
    intro l hl
    rcases List.mem_cons.1 hl with rfl | hl
    · exact Asked.recorded (fun hf => hx hf _ List.mem_cons_self) ha
    · exact ih (fun hf op ho => hx hf op (List.mem_cons_of_mem _ ho)) l hl
  | other _ _ ih => exact ih fun hf op ho => hx hf op (List.mem_cons_of_mem _ ho)

/-- C83. What other software finds in the place of each listed call are bytes that stand for the data of that call, for every
lossless codec: the data itself, or something the decoder turns into it; with its checksum. Partial as `C83_independent_partial`;
stated for archives of less than 4 GiB, and for larger ones without a size of exactly 0xFFFFFFFF. -/
theorem C83_content_partial (C : Codec) (hC : Lawful C) (sink sink' : Sink) (zw : ZipWriter) (h : Created sink zw)
    (hs : sink.bytes = []) (ops : List Op) (evs : List Ev) (hc : (runArchive C zw ops evs).2.1 = .ok sink')
    (hleg : Legible ops (runArchive C zw ops evs).1 (runArchive C zw ops evs).2.2.isZip64 sink'.bytes)
    (hlong : (runArchive C zw ops evs).2.2.isZip64 = false → sink'.bytes.length ≤ 0xFFFFFFFF)
    (hsmall : sink'.bytes.length ≤ 0xFFFFFFFF ∨
      ∀ ls, Program C ops (runArchive C zw ops evs).1 ls → ∀ l ∈ ls, l.us ≠ 0xFFFFFFFF ∧ l.cs ≠ 0xFFFFFFFF)
    (hx : zw.forceNoZip64 = true → ∀ op ∈ ops, ¬ Exchanged op) :
    ∃ ls is, Program C ops (runArchive C zw ops evs).1 ls ∧ independent sink'.bytes = some (is, archiveComment ops) ∧
      List.Forall₂ Shows ls is ∧ is.length = (runArchive C zw ops evs).1.countP isListed ∧
      ∀ k op r d, ops[k]? = some op → (runArchive C zw ops evs).1[k]? = some r → isListed r = true → DataOf C op r d →
        ∃ i m, is[((runArchive C zw ops evs).1.take k).countP isListed]? = some i ∧ (m, i.method) ∈ methodTable ∧
          StandsFor C m i.stored d ∧ i.crc = (crc32 d).toNat := by
  obtain ⟨ls, offs, h1, h2, h3⟩ := C83_independent_partial C sink sink' zw h hs ops evs hc hleg hlong
  have hno : List.Forall₂ (fun l off => ¬ Clash off l) ls offs := by
    refine (forall₂_mem h2).imp fun l off ho hcl => ?_
    rcases hsmall with hsmall | hsmall
    · have h4 := congrArg List.length ho.2
      rw [List.length_take, List.length_drop, show sigLocal.length = 4 from rfl] at h4
      have := hcl.2.1
      omega
    · obtain ⟨g1, g2⟩ := hsmall _ h1 l ho.1
      rcases hcl.2.2.2.2 with h | h
      · exact g1 h
      · exact g2 h
  obtain ⟨is, i1, i2⟩ := h3 hno (Program.recorded h1 hx)
  refine ⟨ls, is, h1, i1, i2, ?_, fun k op r d hop hr hl hd => ?_⟩
  · rw [← i2.length_eq, Program.count h1]
  · obtain ⟨l, hi, ha⟩ := Program.nth h1 hop hr hl
    obtain ⟨i, hi', hsh⟩ := forall₂_get' i2 hi
    obtain ⟨g1, g3⟩ := DataOf.holds hC hd ha
    exact ⟨i, l.entry.compression, hi', hsh.method, by rw [hsh.stored]; exact g3, by rw [hsh.crc, g1]⟩

/-! ## Concrete cases -/

/-- The sample program, in which one entry was abandoned and another failed: a stored and a streamed compressed entry. -/
example : independent Samples.programBytes = some
    ([⟨[97, 46, 116], [], 0, 6275, 20514, 3633523372, 2, 2, 0, 0, [], [104, 105]⟩,
      ⟨[98], [], 8, 0, 0, 1259076923, 3, 8, 0, 27525120,
        [(1, [3, 0, 0, 0, 0, 0, 0, 0, 8, 0, 0, 0, 0, 0, 0, 0, 90, 0, 0, 0, 0, 0, 0, 0])], [1, 7, 1, 8, 2, 1, 9, 0]⟩], [99]) := by decide +kernel

example := C83_content_partial Samples.markCodec Samples.markCodec_lawful ⟨[], 0, 0⟩ ⟨Samples.programBytes, 1, 0⟩
  Samples.fresh .new rfl Samples.program Samples.eager Samples.program_archive.2.1 Samples.program_legible
  (fun _ => by decide +kernel) (Or.inl (by decide +kernel)) (fun h => by cases h)

/-- C83 is not so with `force_no_zip64` for compressed streams: the sizes in the directory are exchanged, and whoever follows them
does not find the data descriptor. -/
theorem C83_exchanged_fails :
    (runArchive Samples.markCodec small Samples.streamOne Samples.eager).1 = [.stream (.ok ()) [.ok 3] (some (.ok ()))] ∧
    (runArchive Samples.markCodec small Samples.streamOne Samples.eager).2.1 = .ok ⟨Samples.exchangedBytes, 0, 0⟩ ∧
    independent Samples.exchangedBytes = none :=
  ⟨Samples.exchanged_archive.1, Samples.exchanged_archive.2, by decide +kernel⟩

end AsyncZip
