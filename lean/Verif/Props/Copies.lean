import Verif.Spec.Copies
import Verif.Proofs.Copies
import Verif.Props.Entries
import Verif.Samples.Copies
/-!
# C48: entries that were read are written again
-/

namespace AsyncZip
open Spec Rd

/-! ## The fields of the copy -/

theorem other_append (a b : List ExtraField) : otherFields (a ++ b) = otherFields a ++ otherFields b := List.filter_append _ _

theorem other_putPath (c : UInt32) (u : Bytes) (fs : List ExtraField) :
    otherFields (putUnicodePath c u fs) = otherFields fs := by
  unfold otherFields
  induction fs with
  | nil => rfl
  | cons f fs ih =>
    cases f with
    | unicodePath i => cases i <;> rfl
    | unicodeComment i => exact ih
    | zip64 z => exact congrArg (ExtraField.zip64 z :: ·) ih
    | unknown i => exact congrArg (ExtraField.unknown i :: ·) ih

theorem other_putComment (c : UInt32) (u : Bytes) (fs : List ExtraField) :
    otherFields (putUnicodeComment c u fs) = otherFields fs := by
  unfold otherFields
  induction fs with
  | nil => rfl
  | cons f fs ih =>
    cases f with
    | unicodeComment i => cases i <;> rfl
    | unicodePath i => exact ih
    | zip64 z => exact congrArg (ExtraField.zip64 z :: ·) ih
    | unknown i => exact congrArg (ExtraField.unknown i :: ·) ih

theorem other_withUnicode (e : ZipEntry) (fs : List ExtraField) : otherFields (withUnicode e fs) = otherFields fs := by
  unfold withUnicode withComment withPath
  repeat' split
  all_goals simp only [other_putComment, other_putPath]

theorem other_trim (fs : List ExtraField) :
    ∃ lost, otherFields fs = otherFields (trim fs) ++ lost ∧ (lost = [] ∨ ∃ f, lost = [f] ∧ EmptyContent f) := by
  rcases trim_cases fs with h | ⟨f, h, he⟩
  · exact ⟨[], by rw [h, List.append_nil], Or.inl rfl⟩
  · refine ⟨[f], ?_, Or.inr ⟨f, rfl, he⟩⟩
    have h1 : otherFields [f] = [f] := by cases f <;> first | rfl | exact absurd he (fun h => h)
    calc otherFields fs = otherFields (trim fs ++ [f]) := by rw [← h]
      _ = otherFields (trim fs) ++ [f] := by rw [other_append, h1]

theorem mem_trim {fs : List ExtraField} {f : ExtraField} (h : f ∈ trim fs) : f ∈ fs := by
  rcases trim_cases fs with h1 | ⟨g, h1, _⟩
  · rwa [h1] at h
  · rw [h1]
    exact List.mem_append_left _ h

/-! ## C48 -/

/-- C48. Every extra field of every entry of every archive that opens can be written again, unless it is a ZIP64 field, and
every name and comment is one that an application could have constructed. -/
theorem C48_readable_fields (b : Build) (s : RState) (f : ZipFile) (h : (openFile b s).1 = .ok f) :
    ∀ e ∈ f.entries, Constructed e.entry.filename ∧ Constructed e.entry.comment ∧
      ∀ x ∈ e.entry.extraFields, (∃ z, x = .zip64 z) ∨ OwnField x := by
  intro e he
  have hm := openFile_made (b := b) (s := s) (s' := (openFile b s).2) (Prod.ext h rfl) e he
  refine ⟨hm.name, hm.comment, fun x hx => ?_⟩
  by_cases hz : ∃ z, x = .zip64 z
  · exact Or.inl hz
  · exact Or.inr (hm.own x hx fun z h => hz ⟨z, h⟩)

/-- C48. The data of an entry that passed the check has the checksum the entry records. -/
theorem checkedRead_crc {C : Codec} {f : ZipFile} {i chunk : Nat} (hc : 0 < chunk) {s : RState} {d : Bytes} {e : StoredZipEntry}
    (he : f.entries[i]? = some e) (h : (checkedRead C f i chunk s).1 = .ok d) : crc32 d = e.entry.crc32 := by
  have h : checkedRead C f i chunk s = (.ok d, (checkedRead C f i chunk s).2) := Prod.ext h rfl
  generalize (checkedRead C f i chunk s).2 = s' at h
  unfold checkedRead readerWithEntry at h
  rw [he] at h
  simp only [bind_ok_iff] at h
  obtain ⟨⟨er, x⟩, s1, ⟨_, s2, _, h1⟩, h2⟩ := h
  cases h1
  simp only at h2
  obtain ⟨⟨d', er'⟩, s3, h3, h4⟩ := h2
  cases h4
  exact (C24_ok_matches C _ _ chunk hc _ s1 s1 _ _ _ [] _ (.refl _ _) h3).1

/-- Every entry that a reader made turns up in the new archive when it is written. -/
theorem made_at {C : Codec} (hC : Lawful C)
    {sink sink' : Sink} {zw : ZipWriter} (h : Created sink zw) (hs : sink.bytes = [])
    {ops : List Op} {evs : List Ev} (hc : (runArchive C zw ops evs).2.1 = .ok sink')
    (hown : ∀ op ∈ ops, (∀ f ∈ userFields op, OwnField f) ∨
      ∃ y : ZipEntry, Made y ∧ userEntry op = some y ∧ Copyable y)
    (hcom : (archiveComment ops).length ≤ 65535) (hlast : LastEnd sink'.bytes (endPosition sink'.bytes (archiveComment ops)))
    (hloc : HasLocator sink'.bytes (endPosition sink'.bytes (archiveComment ops)) →
      (runArchive C zw ops evs).2.2.isZip64 = true)
    (hcount : ∀ r ∈ (runArchive C zw ops evs).1, ¬ TooMany r) (hsmall : sink'.bytes.length ≤ 0xFFFFFFFF)
    (b : Build) (hb : (runArchive C zw ops evs).1.countP isListed ≤ b.maxVecEntries) :
    ∃ f : ZipFile, (∀ s : RState, s.data = sink'.bytes → Interrupted (openFile b s).1 ∨ (openFile b s).1 = .ok f) ∧
      f.entries.length = (runArchive C zw ops evs).1.countP isListed ∧ f.comment = ⟨.utf8, archiveComment ops, none⟩ ∧
      ∀ (x : ZipEntry) (d : Bytes), Made x → Copyable x → d.length ≤ 0xFFFFFFFF →
        ∀ (k : Nat) (evs₁ : List Ev) (r : Res Unit), ops[k]? = some (.whole x d false evs₁) →
        (runArchive C zw ops evs).1[k]? = some (.whole r) → Listed r →
        ∃ y : StoredZipEntry, f.entries[((runArchive C zw ops evs).1.take k).countP isListed]? = some y ∧
          Copied x y.entry ∧ y.entry.crc32 = crc32 d ∧
          y.entry.uncompressedSize.toNat = d.length ∧ Copyable y.entry ∧
          ∀ chunk, 0 < chunk → ∀ s : RState, s.data = sink'.bytes →
            Interrupted (checkedRead C f (((runArchive C zw ops evs).1.take k).countP isListed) chunk s).1 ∨
            (checkedRead C f (((runArchive C zw ops evs).1.take k).countP isListed) chunk s).1 = .ok d := by
  have hleg : Legible ops (runArchive C zw ops evs).1 (runArchive C zw ops evs).2.2.isZip64 sink'.bytes := by
    refine ⟨fun op ho fl hfl => ?_, hcom, hlast, hloc, hcount, by omega⟩
    rcases hown op ho with h1 | ⟨y, hy, h2, h3⟩
    · exact h1 fl hfl
    · have hf : userFields op = y.extraFields := by
        cases op <;> cases h2 <;> rfl
      rw [hf] at hfl
      exact hy.own fl hfl fun z hz => h3.zip64 fl hfl z hz
  obtain ⟨f, h1, h2, hcm, h3⟩ := listed_read hC h hs hc hleg (Or.inl hsmall) b hb
  refine ⟨f, h1, h2, hcm, fun x d hx hcopy hlen k evs₁ r hop hr hl => ?_⟩
  obtain ⟨l, off, y, ha, hy, hread, hname, hcomment, ⟨hoff, hst, hdr, fs, hcar, hextra⟩, hchk⟩ :=
    h3 k _ _ hop hr (decide_eq_true hl)
  obtain ⟨m1, m2, _⟩ := hx
  have hw := Wrote.whole x d evs₁ r
  obtain ⟨w1, w2, w3, _, _⟩ := Wrote.holds hC hw ha
  have hno : ¬ Exchanged (.whole x d false evs₁) := fun h => h
  have hrec := Asked.recorded (force := zw.forceNoZip64) (fun _ => hno) ha
  have hstream : l.streamed = false := by cases ha; rfl
  rw [hrec] at hcar
  rw [w1] at hname hcomment
  have hfs : fs = withUnicode x x.extraFields := by
    have hus : ¬ l.us > 0xFFFFFFFF := by
      rw [w3, gt_iff_lt, UInt64.lt_iff_toNat_lt, ofNat_toNat (by omega)]
      have : (0xFFFFFFFF : UInt64).toNat = 0xFFFFFFFF := rfl
      omega
    have hcs : ¬ l.cs > 0xFFFFFFFF := by
      rw [Listing.cs, gt_iff_lt, UInt64.lt_iff_toNat_lt, ofNat_toNat (by omega)]
      have : (0xFFFFFFFF : UInt64).toNat = 0xFFFFFFFF := rfl
      omega
    cases hcar with
    | plain => rw [w1]
    | big _ hb => exact absurd hb (by rintro (h | h); exacts [hus h, hcs h])
    | far _ _ _ ho => omega
    | stream _ hs => rw [hstream] at hs; cases hs
  rw [hfs] at hextra
  refine ⟨y, hy, ⟨?_, ?_, ?_, ?_, ?_, ?_, ?_⟩, ?_, ?_, ⟨?_, ?_, ?_⟩, hchk (fun _ => hno) d (Wrote.data hw)⟩
  · rw [hname]; exact name_kept m1 hcopy.unicode
  · rw [hcomment]; exact comment_kept m2 hcopy.unicode
  · rw [hread.method, w1]
  · rw [hread.date, w1]
  · rw [hread.internal, w1]
  · rw [hread.external, w1]
  · obtain ⟨lost, q1, q2⟩ := other_trim (withUnicode x x.extraFields)
    exact ⟨lost, by rw [hextra, ← q1, other_withUnicode], q2⟩
  · rw [hread.crc, w2]
  · rw [hread.us, hrec, w3]; exact ofNat_toNat (by omega)
  · rw [hextra]; exact fun g hg => noZip64_withUnicode hcopy.zip64 g (mem_trim hg)
  · intro i hi
    rw [hextra] at hi
    rw [hname]
    exact (unicode_again m1 m2 hcopy.unicode).1 i (mem_trim hi)
  · intro i hi
    rw [hextra] at hi
    rw [hcomment]
    exact (unicode_again m1 m2 hcopy.unicode).2 i (mem_trim hi)

/-- Every copy of an entry of `f₀` among the calls turns up in the new archive. -/
theorem copied_at {C : Codec} (hC : Lawful C) {b₀ : Build} {s₀ : RState} {f₀ : ZipFile} (h₀ : (openFile b₀ s₀).1 = .ok f₀)
    {sink sink' : Sink} {zw : ZipWriter} (h : Created sink zw) (hs : sink.bytes = [])
    {ops : List Op} {evs : List Ev} (hc : (runArchive C zw ops evs).2.1 = .ok sink')
    (hown : ∀ op ∈ ops, (∀ f ∈ userFields op, OwnField f) ∨
      ∃ y ∈ f₀.entries, userEntry op = some y.entry ∧ Copyable y.entry)
    (hcom : (archiveComment ops).length ≤ 65535) (hlast : LastEnd sink'.bytes (endPosition sink'.bytes (archiveComment ops)))
    (hloc : HasLocator sink'.bytes (endPosition sink'.bytes (archiveComment ops)) →
      (runArchive C zw ops evs).2.2.isZip64 = true)
    (hcount : ∀ r ∈ (runArchive C zw ops evs).1, ¬ TooMany r) (hsmall : sink'.bytes.length ≤ 0xFFFFFFFF)
    (b : Build) (hb : (runArchive C zw ops evs).1.countP isListed ≤ b.maxVecEntries) :
    ∃ f : ZipFile, (∀ s : RState, s.data = sink'.bytes → Interrupted (openFile b s).1 ∨ (openFile b s).1 = .ok f) ∧
      f.entries.length = (runArchive C zw ops evs).1.countP isListed ∧ f.comment = ⟨.utf8, archiveComment ops, none⟩ ∧
      ∀ (i₀ chunk₀ : Nat) (s₁ : RState) (x : StoredZipEntry) (d : Bytes), f₀.entries[i₀]? = some x → 0 < chunk₀ →
        (checkedRead C f₀ i₀ chunk₀ s₁).1 = .ok d → Copyable x.entry → d.length ≤ 0xFFFFFFFF →
        ∀ (k : Nat) (evs₁ : List Ev) (r : Res Unit), ops[k]? = some (.whole x.entry d false evs₁) →
        (runArchive C zw ops evs).1[k]? = some (.whole r) → Listed r →
        ∃ y : StoredZipEntry, f.entries[((runArchive C zw ops evs).1.take k).countP isListed]? = some y ∧
          Copied x.entry y.entry ∧ y.entry.crc32 = x.entry.crc32 ∧
          y.entry.uncompressedSize.toNat = d.length ∧ Copyable y.entry ∧
          ∀ chunk, 0 < chunk → ∀ s : RState, s.data = sink'.bytes →
            Interrupted (checkedRead C f (((runArchive C zw ops evs).1.take k).countP isListed) chunk s).1 ∨
            (checkedRead C f (((runArchive C zw ops evs).1.take k).countP isListed) chunk s).1 = .ok d := by
  obtain ⟨f, h1, h2, h3, h4⟩ := made_at hC h hs hc (fun op ho => (hown op ho).imp id fun ⟨y, hy, hu, hcp⟩ =>
    ⟨y.entry, openFile_made (b := b₀) (s := s₀) (s' := (openFile b₀ s₀).2) (Prod.ext h₀ rfl) y hy, hu, hcp⟩) hcom hlast hloc hcount
    hsmall b hb
  refine ⟨f, h1, h2, h3, fun i₀ chunk₀ s₁ x d hx hchunk hd hcopy hlen k evs₁ r hop hr hl => ?_⟩
  obtain ⟨y, g1, g2, g3, g4⟩ := h4 x.entry d (openFile_made (b := b₀) (s := s₀) (s' := (openFile b₀ s₀).2) (Prod.ext h₀ rfl) x
    (List.mem_of_getElem? hx)) hcopy hlen k evs₁ r hop hr hl
  exact ⟨y, g1, g2, g3.trans (checkedRead_crc hchunk hx hd), g4⟩

/-- C48 (partial). Take any entry `x` of any archive that opens, whoever made it, whose data passes the check, and write
both, in one call, with any writer and among whatever other calls (which may copy other entries). If the new archive can be
told from others (as in `Legible`) and is below 4 GiB, as is the data, then it opens and has an entry that is a copy of `x`
with the same checksum, the right size, and the same data; and that entry can be copied again.
Missing from the full claim: entries with a ZIP64 field, or with Info-ZIP unicode fields that contradict their name or
comment; see `C48_twice_fails` and `C48_renamed_fails`. Streaming the copy puts a ZIP64 field on it. -/
theorem C48_copy_partial (C : Codec) (hC : Lawful C) (b₀ : Build) (s₀ : RState) (f₀ : ZipFile) (h₀ : (openFile b₀ s₀).1 = .ok f₀)
    (sink sink' : Sink) (zw : ZipWriter) (h : Created sink zw) (hs : sink.bytes = [])
    (ops : List Op) (evs : List Ev) (hc : (runArchive C zw ops evs).2.1 = .ok sink')
    (hown : ∀ op ∈ ops, (∀ f ∈ userFields op, OwnField f) ∨
      ∃ y ∈ f₀.entries, userEntry op = some y.entry ∧ Copyable y.entry)
    (hcom : (archiveComment ops).length ≤ 65535) (hlast : LastEnd sink'.bytes (endPosition sink'.bytes (archiveComment ops)))
    (hloc : HasLocator sink'.bytes (endPosition sink'.bytes (archiveComment ops)) →
      (runArchive C zw ops evs).2.2.isZip64 = true)
    (hcount : ∀ r ∈ (runArchive C zw ops evs).1, ¬ TooMany r) (hsmall : sink'.bytes.length ≤ 0xFFFFFFFF)
    (i₀ chunk₀ : Nat) (s₁ : RState) (x : StoredZipEntry) (d : Bytes) (hx : f₀.entries[i₀]? = some x) (hchunk : 0 < chunk₀)
    (hd : (checkedRead C f₀ i₀ chunk₀ s₁).1 = .ok d) (hcopy : Copyable x.entry) (hlen : d.length ≤ 0xFFFFFFFF)
    (k : Nat) (evs₁ : List Ev) (r : Res Unit) (hop : ops[k]? = some (.whole x.entry d false evs₁))
    (hr : (runArchive C zw ops evs).1[k]? = some (.whole r)) (hl : Listed r)
    (b : Build) (hb : (runArchive C zw ops evs).1.countP isListed ≤ b.maxVecEntries) :
    ∃ (f : ZipFile) (i : Nat) (y : StoredZipEntry),
      (∀ s : RState, s.data = sink'.bytes → Interrupted (openFile b s).1 ∨ (openFile b s).1 = .ok f) ∧
      f.entries[i]? = some y ∧ Copied x.entry y.entry ∧ y.entry.crc32 = x.entry.crc32 ∧
      y.entry.uncompressedSize.toNat = d.length ∧ Copyable y.entry ∧
      ∀ chunk, 0 < chunk → ∀ s : RState, s.data = sink'.bytes →
        Interrupted (checkedRead C f i chunk s).1 ∨ (checkedRead C f i chunk s).1 = .ok d := by
  obtain ⟨f, h1, _, _, h2⟩ := copied_at hC h₀ h hs hc hown hcom hlast hloc hcount hsmall b hb
  obtain ⟨y, h3⟩ := h2 i₀ chunk₀ s₁ x d hx hchunk hd hcopy hlen k evs₁ r hop hr hl
  exact ⟨f, _, y, h1, h3⟩

theorem Samples.foreign_opens : (openFile Samples.checkedBuild (Samples.prompt Samples.foreignBytes)).1 = .ok Samples.foreignFile := by
  decide +kernel

theorem Samples.copy_archive :
    (runArchive Samples.markCodec Samples.fresh Samples.copyOps Samples.eager).1 = [.whole (.ok ()), .comment] ∧
    (runArchive Samples.markCodec Samples.fresh Samples.copyOps Samples.eager).2.1 = .ok ⟨Samples.copyBytes, 0, 0⟩ := by
  decide +kernel

theorem Samples.foreign_copyable : Copyable Samples.foreignEntry.entry := by
  refine ⟨?_, ?_, ?_⟩
  · show NoZip64 [_, _, _]
    simp only [NoZip64, List.forall_mem_cons]
    exact ⟨fun z h => (by cases h), fun z h => (by cases h), fun z h => (by cases h), fun _ h => (by cases h)⟩
  · intro i hi
    have hi : ExtraField.unicodePath i ∈ [_, _, _] := hi
    simp only [List.mem_cons, List.not_mem_nil, or_false, reduceCtorEq, false_or, ExtraField.unicodePath.injEq] at hi
    subst hi
    exact fun _ => ⟨rfl, rfl⟩
  · intro i hi
    have hi : ExtraField.unicodeComment i ∈ [_, _, _] := hi
    simp only [List.mem_cons, List.not_mem_nil, or_false, reduceCtorEq, false_or, ExtraField.unicodeComment.injEq] at hi
    subst hi
    exact fun _ => ⟨rfl, rfl⟩

/-- The second entry of the foreign archive, with a name in two encodings, a comment and an unknown field, is copied, to a
slow sink, with a comment set on the archive. -/
example (b : Build) (hb : 1 ≤ b.maxVecEntries) : ∃ (f : ZipFile) (i : Nat) (y : StoredZipEntry),
    (∀ s : RState, s.data = Samples.copyBytes → Interrupted (openFile b s).1 ∨ (openFile b s).1 = .ok f) ∧
    f.entries[i]? = some y ∧ Copied Samples.foreignEntry.entry y.entry ∧ y.entry.crc32 = 3633523372 := by
  have hcopy := Samples.foreign_copyable
  obtain ⟨f, i, y, h1, h2, h3, h4, _⟩ := C48_copy_partial Samples.markCodec Samples.markCodec_lawful Samples.checkedBuild
    (Samples.prompt Samples.foreignBytes) Samples.foreignFile Samples.foreign_opens ⟨[], 0, 0⟩ ⟨Samples.copyBytes, 0, 0⟩
    Samples.fresh .new rfl Samples.copyOps Samples.eager Samples.copy_archive.2 (by
      intro op ho
      unfold Samples.copyOps at ho
      simp only [List.mem_cons, List.not_mem_nil, or_false] at ho
      rcases ho with rfl | rfl
      · exact Or.inr ⟨Samples.foreignEntry, List.mem_cons_of_mem _ List.mem_cons_self, rfl, hcopy⟩
      · exact Or.inl fun _ h => (by cases h))
    (by decide +kernel) (lastEnd_of_decide (by decide +kernel)) (by decide +kernel)
    (by rw [Samples.copy_archive.1]; decide) (by decide +kernel) 1 5 (Samples.prompt Samples.foreignBytes) Samples.foreignEntry
    [104, 105] rfl (by decide) (by decide +kernel) hcopy (by decide) 0 Samples.slow (.ok ()) rfl
    (by rw [Samples.copy_archive.1]; rfl) (Or.inl rfl) b (by rw [Samples.copy_archive.1]; exact hb)
  exact ⟨f, i, y, h1, h2, h3, h4⟩

/-- C48 as written does not hold for an entry that was streamed: the copy keeps its ZIP64 field, which is misread because
the sizes do not need it; what was read declares more bytes than it writes, and the copy of the copy, written without an
error, does not give its data back. -/
theorem C48_twice_fails :
    (runArchive Samples.markCodec Samples.fresh Samples.streamOne Samples.eager).2.1 = .ok ⟨Samples.streamedBytes, 0, 0⟩ ∧
    (openFile Samples.checkedBuild (Samples.prompt Samples.streamedBytes)).1 = .ok (Samples.single Samples.firstRead true) ∧
    (runArchive Samples.markCodec Samples.fresh [.whole Samples.firstRead.entry [7, 8, 9] false Samples.eager] Samples.eager).2.1 =
      .ok ⟨Samples.secondBytes, 0, 0⟩ ∧
    (openFile Samples.checkedBuild (Samples.prompt Samples.secondBytes)).1 = .ok (Samples.single Samples.secondRead false) ∧
    (checkedRead Samples.markCodec (Samples.single Samples.secondRead false) 0 5 (Samples.prompt Samples.secondBytes)).1 =
      .ok [7, 8, 9] ∧
    (runArchive Samples.markCodec Samples.fresh [.whole Samples.secondRead.entry [7, 8, 9] false Samples.eager] Samples.eager).1 =
      [.whole (.ok ())] ∧
    (runArchive Samples.markCodec Samples.fresh [.whole Samples.secondRead.entry [7, 8, 9] false Samples.eager] Samples.eager).2.1 =
      .ok ⟨Samples.thirdBytes, 0, 0⟩ ∧
    ∃ f, (openFile Samples.checkedBuild (Samples.prompt Samples.thirdBytes)).1 = .ok f ∧
      (checkedRead Samples.markCodec f 0 5 (Samples.prompt Samples.thirdBytes)).1 = .error (.err .crc32CheckError) := by
  refine ⟨by decide +kernel, by decide +kernel, by decide +kernel, by decide +kernel, by decide +kernel, by decide +kernel,
    by decide +kernel, Samples.single { Samples.secondRead with headerSize := 51 } false, ?_, ?_⟩
  · decide +kernel
  · decide +kernel

/-- C48 as written does not hold for an entry whose unicode field the reader disregards: its copy has another name. -/
theorem C48_renamed_fails :
    (openFile Samples.checkedBuild (Samples.prompt Samples.misflaggedBytes)).1 =
      .ok (Samples.single (Samples.pathRead ⟨.raw, [233], none⟩) false) ∧
    (runArchive Samples.markCodec Samples.fresh [.whole (Samples.pathRead ⟨.raw, [233], none⟩).entry [] false Samples.eager]
      Samples.eager).2.1 = .ok ⟨Samples.renamedBytes, 0, 0⟩ ∧
    (openFile Samples.checkedBuild (Samples.prompt Samples.renamedBytes)).1 =
      .ok (Samples.single (Samples.pathRead ⟨.utf8, [195, 169], some [233]⟩) false) := by
  decide +kernel

end AsyncZip
