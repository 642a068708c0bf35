import Verif.Proofs.Fields
import Verif.Samples.Fields
/-!
# C54, C55: extra fields and header sizes in the opened archive
-/

namespace AsyncZip
open Spec Rd

theorem Finished.entries_shown {b : Build} {C : Codec} {sink : Sink} {zw : ZipWriter} {ops : List Op} {evs : List Ev}
    {bytes out cd : Bytes} {J : Prop} {ps : List (Listing × CdEntry)} {offs : List Nat} {z : Bool}
    (fin : Finished C zw ops evs bytes J out ps offs cd z) (h : Created sink zw)
    (hleg : Legible ops (runArchive C zw ops evs).1 (runArchive C zw ops evs).2.2.isZip64 bytes)
    (hclash : List.Forall₂ (fun l off => ¬ Clash off l) (ps.map Prod.fst) offs) (hv : ps.length ≤ b.maxVecEntries)
    {P : Listing × Nat → StoredZipEntry → Prop}
    (hp : ∀ (p : Listing × CdEntry) off e, p ∈ ps → At zw.forceNoZip64 out p off → Shown b zw.forceNoZip64 p off e →
      P (p.1, off) e) :
    ∃ f : ZipFile, (∀ s : RState, s.data = bytes → Interrupted (openFile b s).1 ∨ (openFile b s).1 = .ok f) ∧
      List.Forall₂ P ((ps.map Prod.fst).zip offs) f.entries := by
  rw [List.forall₂_map_left_iff] at hclash
  obtain ⟨f, h1, h2, _⟩ := fin.shown (b := b) h hleg hclash hv
  refine ⟨f, h1, ?_⟩
  have : (ps.map Prod.fst).zip offs = (ps.zip offs).map fun q => (q.1.1, q.2) := by
    rw [List.zip_map_left]; rfl
  rw [this, List.forall₂_map_left_iff]
  refine (forall₂_mem h2).imp fun q e hq => hp q.1 q.2 e (List.of_mem_zip hq.1).1 ?_ hq.2
  exact (List.forall₂_iff_zip.1 fin.placed).2 hq.1

theorem Finished.signatures {C : Codec} {zw : ZipWriter} {ops : List Op} {evs : List Ev} {bytes out cd : Bytes} {J : Prop}
    {ps : List (Listing × CdEntry)} {offs : List Nat} {z : Bool} (fin : Finished C zw ops evs bytes J out ps offs cd z) :
    List.Forall₂ (fun (_ : Listing) off => OccursAt bytes sigLocal off) (ps.map Prod.fst) offs := by
  rw [List.forall₂_map_left_iff]
  refine fin.placed.imp fun p off hp => ?_
  rw [fin.bytes]
  exact hp.header.1

/-- C54. Every archive that says what it means shows, for every entry, the custom extra fields the caller gave it, in the same
order and with the same content; all fields the caller gave it if the name and comment are plain UTF-8; and a ZIP64 field
exactly if the entry needs one. Partial: a field without content is lost if it is the last one (`C54_empty_fails`), and
`Legible` and `Clash` as in C41. -/
theorem C54_fields_partial (C : Codec) (sink sink' : Sink) (zw : ZipWriter) (h : Created sink zw) (hs : sink.bytes = [])
    (ops : List Op) (evs : List Ev) (hc : (runArchive C zw ops evs).2.1 = .ok sink')
    (hleg : Legible ops (runArchive C zw ops evs).1 (runArchive C zw ops evs).2.2.isZip64 sink'.bytes) :
    ∃ ls offs, Program C ops (runArchive C zw ops evs).1 ls ∧
      List.Forall₂ (fun _ off => OccursAt sink'.bytes sigLocal off) ls offs ∧
      (List.Forall₂ (fun l off => ¬ Clash off l) ls offs → ∀ b : Build, ls.length ≤ b.maxVecEntries →
        ∃ f : ZipFile, (∀ s : RState, s.data = sink'.bytes → Interrupted (openFile b s).1 ∨ (openFile b s).1 = .ok f) ∧
          List.Forall₂ (fun (q : Listing × Nat) e => FieldsKept zw.forceNoZip64 q.2 q.1 e) (ls.zip offs) f.entries) := by
  obtain ⟨out, ps, offs, cd, z, fin⟩ := finished h hs hc (J := True) (Or.inl trivial)
  refine ⟨ps.map Prod.fst, offs, fin.program, fin.signatures, fun hcl b hv => ?_⟩
  rw [List.length_map] at hv
  refine fin.entries_shown h hleg hcl hv fun p off e hp hat hsh => ?_
  obtain ⟨a, x, rest, _, _, g⟩ := hat
  exact hsh.kept g (fin.own hleg.own p hp)

/-- C55. In every archive that says what it means, the header offset and header size shown for an entry lead to its data, but
for what the directory adds to the extra field: 8 bytes for streamed entries, 12 for whole entries beyond 4 GiB whose own
sizes fit. Partial: `Legible` and `Clash` as in C41. -/
theorem C55_header_size_partial (C : Codec) (sink sink' : Sink) (zw : ZipWriter) (h : Created sink zw) (hs : sink.bytes = [])
    (ops : List Op) (evs : List Ev) (hc : (runArchive C zw ops evs).2.1 = .ok sink')
    (hleg : Legible ops (runArchive C zw ops evs).1 (runArchive C zw ops evs).2.2.isZip64 sink'.bytes) :
    ∃ ls offs, Program C ops (runArchive C zw ops evs).1 ls ∧
      List.Forall₂ (fun _ off => OccursAt sink'.bytes sigLocal off) ls offs ∧
      (List.Forall₂ (fun l off => ¬ Clash off l) ls offs → ∀ b : Build, ls.length ≤ b.maxVecEntries →
        ∃ f : ZipFile, (∀ s : RState, s.data = sink'.bytes → Interrupted (openFile b s).1 ∨ (openFile b s).1 = .ok f) ∧
          List.Forall₂ (fun (q : Listing × Nat) e => e.fileOffset = q.2 ∧ OccursAt sink'.bytes q.1.stored
              (dataStart sink'.bytes q.2) ∧
            e.fileOffset + e.headerSize = dataStart sink'.bytes q.2 + headerGap zw.forceNoZip64 q.2 q.1)
            (ls.zip offs) f.entries) := by
  obtain ⟨out, ps, offs, cd, z, fin⟩ := finished h hs hc (J := True) (Or.inl trivial)
  refine ⟨ps.map Prod.fst, offs, fin.program, fin.signatures, fun hcl b hv => ?_⟩
  rw [List.length_map] at hv
  refine fin.entries_shown h hleg hcl hv fun p off e hp hat hsh => ?_
  obtain ⟨a, x, rest, hout, ha, g⟩ := hat
  have hown := fin.own hleg.own p hp
  have hd : sink'.bytes = a ++ (x ++ (rest ++ (cd ++ endBytes z ps.length cd.length out.length
      (commentBytes (finalComment none ops))))) := by
    rw [fin.bytes, archiveBytes, hout]; simp only [List.append_assoc]
  refine ⟨hsh.readAs.offset, (g.local (own_noZip64 hown) hd ha).stored, ?_⟩
  obtain ⟨hl, fs, extra, hloc, hx, hbytes⟩ := g.bytes
  have h0 : sink'.bytes.drop off = le32 LFH_SIGNATURE ++ (hl.asSlice ++ (p.1.entry.filename.basic ++ (extra ++ (p.1.stored ++
      (tailBytes zw.forceNoZip64 p.1 ++ (rest ++ (cd ++ endBytes z ps.length cd.length out.length
      (commentBytes (finalComment none ops))))))))) := by
    rw [hd, List.drop_append_of_le_length (Nat.le_of_eq ha.symm), ← ha, List.drop_length, List.nil_append, hbytes, localBytes]
    simp only [List.append_assoc]
  have h1 := drop_append_of_drop h0 (le32_length _)
  obtain ⟨_, _, _, _, _, _, _, k8, k9⟩ := lfh_fields (take_of_drop h1 (lfh_length hl)).symm
  have := Good.gap g.describes hloc (own_noZip64 hown)
  rw [hsh.headerSize, hsh.readAs.offset, dataStart, k8, k9, hloc.nameLen, hloc.extraLen]
  simp only
  omega

/-! ## Where that goes wrong -/

namespace Samples

theorem fielded_archive : (runArchive markCodec fresh fielded eager).1 = [.whole (.ok ())] ∧
    (runArchive markCodec fresh fielded eager).2.1 = .ok ⟨fieldedBytes, 0, 0⟩ ∧
    (runArchive markCodec fresh fielded eager).2.2.isZip64 = false := by decide +kernel

theorem fielded_legible : Legible fielded (runArchive markCodec fresh fielded eager).1
    (runArchive markCodec fresh fielded eager).2.2.isZip64 fieldedBytes := by
  rw [fielded_archive.1, fielded_archive.2.2]
  refine legible_of_decide ?_ (by decide +kernel)
  intro op ho
  rw [List.mem_singleton.1 ho]
  intro f hf
  simp only [userFields, fieldedEntry, List.mem_cons, List.not_mem_nil, or_false] at hf
  rcases hf with rfl | rfl <;> exact ⟨fun z h => (by cases h), by decide⟩

theorem streamed_legible : Legible streamOne (runArchive markCodec fresh streamOne eager).1
    (runArchive markCodec fresh streamOne eager).2.2.isZip64 streamedBytes := by
  rw [streamed_archive.1, show (runArchive markCodec fresh streamOne eager).2.2.isZip64 = true by decide +kernel]
  refine legible_of_decide ?_ (by decide +kernel)
  intro op ho
  rw [List.mem_singleton.1 ho]
  exact fun f hf => by cases hf

end Samples

/-- An offset at which something stands in a small file is small. -/
theorem offset_small {data x : List UInt8} {off : Nat} (h : OccursAt data x off) (hx : x ≠ []) : off < data.length := by
  have := congrArg List.length h
  rw [List.length_take, List.length_drop] at this
  have h2 : x.length ≠ 0 := fun h => hx (List.length_eq_zero_iff.1 h)
  omega

/-- C54 as one would like it does not hold: of the two custom fields the caller gave this entry, the second is in the file, and
no reader ever shows it. -/
theorem C54_empty_fails (b : Build) (hb : 1 ≤ b.maxVecEntries) :
    (runArchive Samples.markCodec Samples.fresh Samples.fielded Samples.eager).1 = [.whole (.ok ())] ∧
    (runArchive Samples.markCodec Samples.fresh Samples.fielded Samples.eager).2.1 = .ok ⟨Samples.fieldedBytes, 0, 0⟩ ∧
    Samples.fieldedEntry.extraFields = [.unknown ⟨0x9901, 2, [1, 2]⟩, .unknown ⟨0x9902, 0, []⟩] ∧
    ∃ f : ZipFile, (∀ s : RState, s.data = Samples.fieldedBytes → Interrupted (openFile b s).1 ∨ (openFile b s).1 = .ok f) ∧
      f.entries.map (fun e => e.entry.extraFields) = [[.unknown ⟨0x9901, 2, [1, 2]⟩]] := by
  refine ⟨Samples.fielded_archive.1, Samples.fielded_archive.2.1, rfl, ?_⟩
  obtain ⟨ls, offs, h1, h2, h3⟩ := C54_fields_partial Samples.markCodec ⟨[], 0, 0⟩ ⟨Samples.fieldedBytes, 0, 0⟩ Samples.fresh
    .new rfl Samples.fielded Samples.eager Samples.fielded_archive.2.1 Samples.fielded_legible
  rw [Samples.fielded_archive.1] at h1
  unfold Samples.fielded at h1
  cases h1 with
  | other h _ => exact absurd (Or.inl rfl) h
  | listed ha h1 =>
    cases h1
    cases h2 with
    | cons h2 hr =>
      cases hr
      have hsm := offset_small h2 (by decide)
      rw [show Samples.fieldedBytes.length = 126 by decide +kernel] at hsm
      cases ha with
      | whole e d evs r stored hl hst =>
        rcases hst with ⟨_, rfl⟩ | ⟨h, _⟩
        · have hus : ∀ l : Listing, l.us = 2 → l.cs = 2 → l.streamed = false → ∀ off, off < 126 →
              ¬ Clash off l ∧ ¬ NeedsField Samples.fresh.forceNoZip64 off l := by
            intro l h1 h2 h3 off ho
            refine ⟨fun h => absurd h.2.1 (by omega), ?_⟩
            rintro (⟨h, _⟩ | ⟨_, h⟩)
            · rw [h3] at h; cases h
            · rw [h1, h2] at h
              rcases h with h | h | h
              · exact absurd h (by decide)
              · exact absurd h (by decide)
              · omega
          obtain ⟨hcl, hnd⟩ := hus ⟨Samples.fieldedEntry, false, crc32 [104, 105], 2, [104, 105]⟩ rfl rfl rfl _ hsm
          obtain ⟨f, hf1, hf2⟩ := h3 (.cons hcl .nil) b hb
          refine ⟨f, hf1, ?_⟩
          generalize f.entries = es at hf2 ⊢
          cases hf2 with
          | cons hk hk' =>
            cases hk'
            have := hk.exact rfl rfl hnd
            rw [List.map_singleton, this]
            show [withoutEmptyLast Samples.fieldedEntry.extraFields] = _
            decide
        · exact absurd rfl h

/-- Header offset and header size do not lead to the data of this entry, which is streamed: they end eight bytes after its
beginning, in every reader. -/
theorem C55_streamed_fails (b : Build) (hb : 1 ≤ b.maxVecEntries) :
    (runArchive Samples.markCodec Samples.fresh Samples.streamOne Samples.eager).2.1 = .ok ⟨Samples.streamedBytes, 0, 0⟩ ∧
    ∃ f : ZipFile, (∀ s : RState, s.data = Samples.streamedBytes → Interrupted (openFile b s).1 ∨ (openFile b s).1 = .ok f) ∧
      ∃ e, f.entries = [e] ∧ e.fileOffset + e.headerSize = dataStart Samples.streamedBytes e.fileOffset + 8 := by
  refine ⟨Samples.streamed_archive.2, ?_⟩
  obtain ⟨ls, offs, h1, h2, h3⟩ := C55_header_size_partial Samples.markCodec ⟨[], 0, 0⟩ ⟨Samples.streamedBytes, 0, 0⟩
    Samples.fresh .new rfl Samples.streamOne Samples.eager Samples.streamed_archive.2 Samples.streamed_legible
  rw [Samples.streamed_archive.1] at h1
  unfold Samples.streamOne at h1
  cases h1 with
  | other h _ => exact absurd (Or.inl rfl) h
  | listed ha h1 =>
    cases h1
    cases h2 with
    | cons h2 hr =>
      cases hr
      cases ha with
      | stream e evs evs' acts srs r fed stored hl hst hfed =>
        obtain ⟨f, hf1, hf2⟩ := h3 (.cons (fun h => by cases h.1) .nil) b hb
        refine ⟨f, hf1, ?_⟩
        generalize f.entries = es at hf2 ⊢
        cases hf2 with
        | cons hk hk' =>
          cases hk'
          refine ⟨_, rfl, ?_⟩
          have h4 := hk.2.2
          rw [← hk.1] at h4
          exact h4

/-! ## The sample program -/

example := C54_fields_partial Samples.markCodec ⟨[], 0, 0⟩ ⟨Samples.programBytes, 1, 0⟩ Samples.fresh .new rfl Samples.program
  Samples.eager Samples.program_archive.2.1 Samples.program_legible

example := C55_header_size_partial Samples.markCodec ⟨[], 0, 0⟩ ⟨Samples.programBytes, 1, 0⟩ Samples.fresh .new rfl
  Samples.program Samples.eager Samples.program_archive.2.1 Samples.program_legible

end AsyncZip
