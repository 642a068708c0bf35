import Mathlib.Data.List.Forall2
import Verif.Proofs.WriteClose
import Verif.Proofs.OpenRuns
import Verif.Spec.Archive
/-!
# Opening what closing wrote
-/

namespace AsyncZip
open Spec

/-- The directory record of `c` is read as `e`. -/
def Reads (b : Build) (c : CdEntry) (e : StoredZipEntry) : Prop :=
  ∃ m xb fs, extraAsBytes c.entry.extraFields = .ok xb ∧
    c.entry.filename.basic.length = c.header.fileNameLength.toNat ∧ xb.length = c.header.extraFieldLength.toNat ∧
    c.entry.comment.basic.length = c.header.fileCommentLength.toNat ∧ Compression.tryFrom c.header.compression = .ok m ∧
    parseExtraFields b xb c.header.uncompressedSize c.header.compressedSize = .ok fs ∧
    e = cdEntryOf c.header c.entry.filename.basic m fs c.entry.comment.basic

theorem recordBytes_length (h : CentralDirectoryRecord) (n x c : Bytes) :
    (recordBytes h n x c).length = 46 + n.length + x.length + c.length := by
  simp only [recordBytes, List.length_append, le32_length, cdr_length]; omega

theorem Directory.length {cs : List CdEntry} {cd : Bytes} (h : Directory cs cd) : 46 * cs.length ≤ cd.length := by
  induction h with
  | nil => simp
  | cons _ _ ih => simp only [List.length_append, List.length_cons, recordBytes_length]; omega

theorem Runs.directory {b : Build} {data : Bytes} {cs : List CdEntry} {cd : Bytes} (h : Directory cs cd) :
    ∀ {es : List StoredZipEntry} {pos : Nat} {rest : Bytes}, List.Forall₂ (Reads b) cs es → data.drop pos = cd ++ rest →
    Runs (cdLoop b cs.length) data pos (.ok es) (pos + cd.length) := by
  induction h with
  | nil =>
    intro es pos rest hes _
    cases hes
    exact Runs.pure
  | @cons c cs extra bs hx h ih =>
    intro es pos rest hes hd
    cases hes with
    | cons h1 hs =>
      rename_i e es'
      obtain ⟨m, xb, fs, g1, g2, g3, g4, g5, g6, rfl⟩ := h1
      rw [g1, Except.ok.injEq] at hx
      subst hx
      rw [List.append_assoc] at hd
      have hd' := hd
      simp only [recordBytes, List.append_assoc] at hd'
      have hr := Runs.cdRecord hd' g2 g3 g4 g5 g6
      have hl := recordBytes_length c.header c.entry.filename.basic xb c.entry.comment.basic
      rw [← hl] at hr
      have := ih hs (drop_append_of_drop hd rfl)
      rw [List.length_append, ← Nat.add_assoc]
      exact Runs.cdLoop_cons hr this

theorem clamp16_toNat (n : Nat) (h : n ≤ 0xFFFF) : (clamp16 n).toNat = n := by
  unfold clamp16
  rw [if_neg (by omega), UInt16.toNat_ofNat']
  omega

theorem clamp32_toNat (n : Nat) (h : n ≤ 0xFFFFFFFF) : (clamp32 n).toNat = n := by
  unfold clamp32
  rw [if_neg (by omega), UInt32.toNat_ofNat']
  omega

theorem clamp16_max {n : Nat} (h : clamp16 n ≠ 0xFFFF) : n ≤ 0xFFFF := by
  unfold clamp16 at h
  split at h
  · exact absurd rfl h
  · omega

theorem clamp32_max {n : Nat} (h : clamp32 n ≠ 0xFFFFFFFF) : n ≤ 0xFFFFFFFF := by
  unfold clamp32 at h
  split at h
  · exact absurd rfl h
  · omega

/-- The number of entries, read with the ZIP64 record. -/
theorem combine_count (n : Nat) (h : n < 2 ^ 64) (m : UInt64) (hm : m = UInt64.ofNat n) :
    (if clamp16 n = 0xFFFF then m else (clamp16 n).toUInt64).toNat = n := by
  subst hm
  split
  · rw [UInt64.toNat_ofNat', Nat.mod_eq_of_lt h]
  · rename_i h'
    rw [UInt16.toNat_toUInt64, clamp16_toNat n (clamp16_max h')]

theorem combine_offset (n : Nat) (h : n < 2 ^ 64) (m : UInt64) (hm : m = UInt64.ofNat n) :
    (if clamp32 n = 0xFFFFFFFF then m else (clamp32 n).toUInt64).toNat = n := by
  subst hm
  split
  · rw [UInt64.toNat_ofNat', Nat.mod_eq_of_lt h]
  · rename_i h'
    rw [UInt32.toNat_toUInt64, clamp32_toNat n (clamp32_max h')]

theorem zip64EndBytes_length (a b c d : Nat) : (zip64EndBytes a b c d).length = 76 := by
  simp only [zip64EndBytes, List.length_append, le32_length, z64eocdr_length, z64eocdl_length]

theorem sigEnd_eq : sigEnd = eocdrSig := rfl

theorem sigLocator_eq : le32 ZIP64_EOCDL_SIGNATURE = sigLocator := by decide

/-- Where the end record is in a finished archive. -/
def endAt (out cd : Bytes) (z : Bool) : Nat := out.length + cd.length + if z then 76 else 0

/-- A finished archive. -/
def archiveBytes (out cd : Bytes) (z : Bool) (n : Nat) (comment : Bytes) : Bytes :=
  out ++ (cd ++ endBytes z n cd.length out.length comment)

theorem archive_drop_end (out cd : Bytes) (z : Bool) (n : Nat) (comment : Bytes) :
    (archiveBytes out cd z n comment).drop (endAt out cd z) =
      le32 EOCDR_SIGNATURE ++ ((eocdrOf n cd.length out.length comment).asSlice ++ comment) := by
  unfold archiveBytes endAt endBytes
  rw [← List.append_assoc out, ← List.append_assoc]
  apply List.drop_left'
  cases z <;> simp only [List.length_append, List.length_nil, zip64EndBytes_length, if_true, if_false, Bool.false_eq_true]

theorem archive_length (out cd : Bytes) (z : Bool) (n : Nat) (comment : Bytes) :
    (archiveBytes out cd z n comment).length = endAt out cd z + 22 + comment.length := by
  unfold archiveBytes endAt endBytes
  cases z <;> simp only [List.length_append, List.length_nil, zip64EndBytes_length, if_true, if_false, Bool.false_eq_true,
    le32_length, eocdr_length] <;> omega

theorem archive_drop_cd (out cd : Bytes) (z : Bool) (n : Nat) (comment : Bytes) :
    (archiveBytes out cd z n comment).drop out.length = cd ++ endBytes z n cd.length out.length comment := by
  unfold archiveBytes
  rw [List.drop_left']
  rfl

/-- Opening a finished archive. -/
theorem reopen {b : Build} {out cd comment : Bytes} {z : Bool} {cs : List CdEntry} {es : List StoredZipEntry}
    (hdir : Directory cs cd) (hes : List.Forall₂ (Reads b) cs es)
    (hlast : LastEnd (archiveBytes out cd z cs.length comment) (endAt out cd z)) (hc : comment.length ≤ 65535)
    (hz : z = false → ¬ HasLocator (archiveBytes out cd z cs.length comment) (endAt out cd z) ∧ cs.length ≤ 0xFFFF ∧
      out.length ≤ 0xFFFFFFFF)
    (hlen : (archiveBytes out cd z cs.length comment).length < 2 ^ 64) (hv : cs.length ≤ b.maxVecEntries) (pos : Nat) :
    ∃ pos', Runs (openFile b) (archiveBytes out cd z cs.length comment) pos
      (.ok { entries := es, zip64 := z, comment := ZipString.new comment .utf8 }) pos' := by
  have hd := archive_drop_end out cd z cs.length comment
  have hd4 := drop_append_of_drop hd (n := 4) (le32_length _)
  have hd22 := drop_append_of_drop hd4 (n := 18) (eocdr_length _)
  have hlen' := archive_length out cd z cs.length comment
  have hcd := Runs.directory (b := b) hdir hes (archive_drop_cd out cd z cs.length comment)
  have hdl := hdir.length
  have hn64 : cs.length < 2 ^ 64 := by unfold endAt at hlen'; omega
  have ho64 : out.length < 2 ^ 64 := by unfold endAt at hlen'; omega
  have hcl : (eocdrOf cs.length cd.length out.length comment).fileCommLength.toNat = comment.length := by
    simp only [eocdrOf, UInt16.toNat_ofNat']; omega
  have key : ∀ rec : CombinedRecord, rec.diskNumber = rec.diskNumberStartOfCd → rec.numEntries = rec.numEntriesOnDisk →
      rec.numEntries.toNat = cs.length → rec.offsetOfStart.toNat = out.length →
      (∀ p, ∃ p', Runs (readCombined b (endAt out cd z + 4) (eocdrOf cs.length cd.length out.length comment))
        (archiveBytes out cd z cs.length comment) p (.ok (rec, z)) p') →
      ∃ pos', Runs (openFile b) (archiveBytes out cd z cs.length comment) pos
      (.ok { entries := es, zip64 := z, comment := ZipString.new comment .utf8 }) pos' := by
    intro rec r1 r2 r3 r4 r5
    refine ⟨_, Runs.openFile (j := endAt out cd z) (re := .ok es) (comment := comment)
      (eo := eocdrOf cs.length cd.length out.length comment) (rec := rec) (z := z) hlast.1 hlast.2 (by omega) ?_ ?_ r5 r1 r2
      (by rw [r3, r4]; exact Runs.cd hv hcd)⟩
    · rw [hd4]; exact List.take_left' (eocdr_length _)
    · rw [show endAt out cd z + 22 = endAt out cd z + 4 + 18 from rfl, hd22, hcl]
      exact List.take_length
  cases z with
  | false =>
    obtain ⟨h1, h2, h3⟩ := hz rfl
    refine key (CombinedRecord.ofEocdr (eocdrOf cs.length cd.length out.length comment)) rfl rfl ?_ ?_ ?_
    · show (clamp16 cs.length).toUInt64.toNat = _
      rw [UInt16.toNat_toUInt64, clamp16_toNat _ h2]
    · show (clamp32 out.length).toUInt64.toNat = _
      rw [UInt32.toNat_toUInt64, clamp32_toNat _ h3]
    · intro p
      by_cases hj : endAt out cd false < 20
      · exact ⟨_, Runs.readCombined_near hj⟩
      · refine ⟨_, Runs.readCombined_plain (by omega) rfl ?_ ?_⟩
        · rw [List.length_take, List.length_drop]; omega
        · intro he
          apply h1
          refine ⟨by omega, ?_⟩
          unfold OccursAt
          rw [show sigLocator.length = 4 from rfl, he]
          exact sigLocator_eq
  | true =>
    have hz1 : (archiveBytes out cd true cs.length comment).drop (out.length + cd.length) =
        zip64EndBytes cs.length cd.length out.length (out.length + cd.length) ++
        (le32 EOCDR_SIGNATURE ++ ((eocdrOf cs.length cd.length out.length comment).asSlice ++ comment)) := by
      have := archive_drop_cd out cd true cs.length comment
      exact drop_append_of_drop this rfl
    unfold zip64EndBytes at hz1
    simp only [List.append_assoc] at hz1
    have hz2 := drop_append_of_drop hz1 (n := 4) (le32_length _)
    have hz3 := drop_append_of_drop hz2 (n := 52) (z64eocdr_length _)
    have hea : endAt out cd true = out.length + cd.length + 76 := rfl
    have hro : (UInt64.ofNat (out.length + cd.length)).toNat = out.length + cd.length := by
      rw [UInt64.toNat_ofNat', Nat.mod_eq_of_lt]; omega
    refine key _ ?_ ?_ ?_ ?_ (fun p => ⟨_, Runs.readCombined_zip64 (by omega)
      (by rw [show endAt out cd true - 20 = out.length + cd.length + 4 + 52 by omega]; exact hz3)
      (by simp only; rw [hro]; omega) (by simp only; rw [hro]; exact hz2)⟩)
    · simp only [CombinedRecord.combine]; rfl
    · simp only [CombinedRecord.combine]; rfl
    · exact combine_count _ hn64 _ rfl
    · exact combine_offset _ ho64 _ rfl

end AsyncZip
