import Verif.Props.Entries
/-!
# C53: records do not overlap
-/

namespace AsyncZip
open Spec Rd

theorem Good.recordEnd {force : Bool} {off : Nat} {x a rest : Bytes} {l : Listing} {c : CdEntry} {data : Bytes}
    (g : Good force off x l c) (hno : NoZip64 l.entry.extraFields) (hd : data = a ++ (x ++ rest))
    (ha : a.length = off) : Spec.recordEnd data off l = off + x.length := by
  obtain ⟨h, fs, extra, hl, hx, hbytes⟩ := g.bytes
  have hlen := extraAsBytes_length hx
  rw [local_disk hl hno] at hlen
  have h0 : data.drop off = le32 LFH_SIGNATURE ++ (h.asSlice ++ (l.entry.filename.basic ++ (extra ++ (l.stored ++
      (tailBytes force l ++ rest))))) := by
    rw [hd, List.drop_append_of_le_length (Nat.le_of_eq ha.symm), ← ha, List.drop_length, List.nil_append, hbytes, localBytes]
    simp only [List.append_assoc]
  have h1 := drop_append_of_drop h0 (le32_length _)
  obtain ⟨_, _, _, _, _, _, _, k8, k9⟩ := lfh_fields (take_of_drop h1 (lfh_length h)).symm
  have htail : (tailBytes force l).length = if l.streamed then 16 else 0 := by
    unfold tailBytes
    split
    · split <;> rfl
    · rfl
  have hx : x.length = 30 + l.entry.filename.basic.length + extra.length + l.stored.length + (tailBytes force l).length := by
    rw [hbytes, localBytes]
    simp only [List.length_append, lfh_length, le32_length]
    omega
  unfold Spec.recordEnd dataStart
  rw [k8, k9, hx, htail, hl.nameLen, hl.extraLen]
  omega

theorem Laid.tiled {J : Prop} {force : Bool} {out y : Bytes} {pos stop : Nat} {ps : List (Listing × CdEntry)}
    {offs : List Nat} (h : Laid J force out pos ps offs stop)
    (hno : ∀ p ∈ ps, NoZip64 p.1.entry.extraFields) :
    Tiled (out ++ y) (¬ J) pos ((ps.map Prod.fst).zip offs) stop := by
  induction h with
  | nil h t => exact .nil h t
  | @cons pos off stop p ps offs a x rest h t hout ha g _ ih =>
    have hd : out ++ y = a ++ (x ++ (rest ++ y)) := by rw [hout]; simp only [List.append_assoc]
    have hf := hno p List.mem_cons_self
    refine .cons h t (g.local hf hd ha) ?_
    rw [g.recordEnd hf hd ha]
    exact ih fun q hq => hno q (List.mem_cons_of_mem _ hq)

theorem Finished.noZip64 {C : Codec} {zw : ZipWriter} {ops : List Op} {evs : List Ev} {bytes out cd : Bytes} {J : Prop}
    {ps : List (Listing × CdEntry)} {offs : List Nat} {z : Bool} (fin : Finished C zw ops evs bytes J out ps offs cd z)
    (hno : ∀ op ∈ ops, NoZip64 (userFields op)) : ∀ p ∈ ps, NoZip64 p.1.entry.extraFields := by
  intro p hp
  obtain ⟨op, ho, hfs⟩ := Program.fields fin.program p.1 (List.mem_map_of_mem hp)
  rw [hfs]
  exact hno op ho

/-- C53. In every closed archive, whatever failed, was cancelled or abandoned on the way, the records of the listed entries
follow one another without overlapping and end before the directory, in the order of their directory records. If nothing
failed, they fill the file from its first byte to the directory. Each directory record of an entry with truthful extra fields
gives the place of its record. Partial: the caller supplies no ZIP64 fields (`C53_disk_fails`), and the place a directory
record gives is in doubt where `Clash` says. -/
theorem C53_tiling_partial (C : Codec) (sink sink' : Sink) (zw : ZipWriter) (h : Created sink zw) (hs : sink.bytes = [])
    (ops : List Op) (evs : List Ev) (hc : (runArchive C zw ops evs).2.1 = .ok sink')
    (hno : ∀ op ∈ ops, NoZip64 (userFields op)) (hsize : sink'.bytes.length < 2 ^ 64) :
    ∃ ls offs dir stop js, Program C ops (runArchive C zw ops evs).1 ls ∧ ls.length = offs.length ∧
      DirectoryOf sink'.bytes (runArchive C zw ops evs).2.2.isZip64 (archiveComment ops) dir stop js ∧
      Tiled sink'.bytes (∀ r ∈ (runArchive C zw ops evs).1, Fine r) 0 (ls.zip offs) dir ∧
      List.Forall₂ (fun (q : Listing × Nat) j => (∀ f ∈ q.1.entry.extraFields, OwnField f) → ¬ Clash q.2 q.1 →
        ∃ us cs, Declares sink'.bytes j us cs q.2)
        (ls.zip offs) js := by
  obtain ⟨out, ps, offs, cd, z, fin⟩ := finished h hs hc (J := ¬ ∀ r ∈ (runArchive C zw ops evs).1, Fine r)
    (Classical.em _).symm
  obtain ⟨js, h1, h2, _⟩ := fin.onBytes hno hsize
  refine ⟨ps.map Prod.fst, offs, out.length, out.length + cd.length, js, fin.program, ?_, ?_, ?_, ?_⟩
  · rw [List.length_map]; exact fin.placed.length_eq
  · rw [← fin.zip]; exact h1
  · have := fin.laid.tiled (y := cd ++ endBytes z ps.length cd.length out.length (commentBytes (finalComment none ops)))
      (fin.noZip64 hno)
    rw [Classical.not_not] at this
    rw [fin.bytes, archiveBytes]
    exact this
  · exact h2.imp fun q j hq hown hcl => ⟨_, _, (hq.2.2 hown).1 hcl⟩

/-- The sample program, in which an abandoned stream leaves bytes between the records and a failed write leaves more before the
directory. -/
example := C53_tiling_partial Samples.markCodec ⟨[], 0, 0⟩ ⟨Samples.programBytes, 1, 0⟩ Samples.fresh .new rfl Samples.program
  Samples.eager Samples.program_archive.2.1 (fun op ho => own_noZip64 (Samples.program_legible.own op ho)) (by decide +kernel)

/-- A streamed entry alone: it fills the file from its first byte to the directory. -/
example : ∃ (ls : List Listing) (offs : List Nat) (dir : Nat), Tiled Samples.streamedBytes True 0 (ls.zip offs) dir := by
  obtain ⟨ls, offs, dir, stop, js, h1, h2, h3, h4, _⟩ := C53_tiling_partial Samples.markCodec ⟨[], 0, 0⟩
    ⟨Samples.streamedBytes, 0, 0⟩ Samples.fresh .new rfl Samples.streamOne Samples.eager Samples.streamed_archive.2
    (fun op ho f hf => by rw [List.mem_singleton.1 ho] at hf; cases hf) (by decide +kernel)
  rw [Samples.streamed_archive.1] at h4
  have : (∀ r ∈ [OpResult.stream (.ok ()) [.ok 3] (some (.ok ()))], Fine r) = True :=
    eq_true fun r hr => by rw [List.mem_singleton.1 hr]; exact Or.inl rfl
  rw [this] at h4
  exact ⟨ls, offs, dir, h4⟩

/-- An entry whose only extra field is a ZIP64 field with a disk number. -/
def Samples.diskEntry : ZipEntry := { Samples.storedEntry with extraFields := [.zip64 ⟨1, none, none, none, some 0⟩] }

/-- What comes of writing it. -/
def Samples.diskBytes : Bytes :=
  [80, 75, 3, 4, 10, 0, 0, 8, 0, 0, 131, 24, 34, 80, 220, 41, 180, 49, 3, 0, 0, 0, 3, 0, 0, 0, 3, 0, 12, 0, 97, 46, 116,
   1, 0, 8, 0, 0, 0, 0, 0, 5, 6, 7,
   80, 75, 1, 2, 63, 3, 10, 0, 0, 8, 0, 0, 131, 24, 34, 80, 220, 41, 180, 49, 3, 0, 0, 0, 3, 0, 0, 0, 3, 0, 12, 0, 0, 0, 0, 0,
   0, 0, 0, 0, 0, 0, 0, 0, 0, 0, 97, 46, 116, 1, 0, 8, 0, 0, 0, 0, 0,
   80, 75, 5, 6, 0, 0, 0, 0, 1, 0, 1, 0, 57, 0, 0, 0, 44, 0, 0, 0, 0, 0]

/-- C53 is not so for entries with a ZIP64 field that has a disk number: the header declares its extra field four bytes longer
than it is (`C05_declared_length_fails`), so that by its own lengths the record begins its data too late and ends inside the
directory. No call fails. -/
theorem C53_disk_fails : ∃ ops : List Op,
    (runArchive Samples.markCodec Samples.fresh ops Samples.eager).1 = [.whole (.ok ())] ∧
    (runArchive Samples.markCodec Samples.fresh ops Samples.eager).2.1 = .ok ⟨Samples.diskBytes, 0, 0⟩ ∧
    ∀ ls offs dir, Program Samples.markCodec ops [.whole (.ok ())] ls → ls.length = offs.length →
      ¬ Tiled Samples.diskBytes True 0 (ls.zip offs) dir := by
  refine ⟨[.whole Samples.diskEntry [5, 6, 7] false Samples.eager], by decide +kernel, by decide +kernel, ?_⟩
  intro ls offs dir hp hl ht
  cases hp with
  | other h _ => exact h (Or.inl rfl)
  | listed h hs =>
    cases hs
    cases h with
    | whole _ _ _ _ stored _ hst =>
      match offs, hl, ht with
      | [off], _, ht =>
        cases ht with
        | cons _ t here _ =>
          have h0 := t trivial
          subst h0
          rcases hst with ⟨_, rfl⟩ | ⟨h, _⟩
          · exact absurd here.stored (by decide +kernel)
          · exact absurd rfl h

end AsyncZip
