import Verif.Props.Copies
/-!
# C67: copying a whole archive
-/

namespace AsyncZip
open Spec Rd

theorem copyAll_results (C : Codec) (c : RString) : ∀ (xs : List StoredZipEntry) (ds : List (Bytes × List Ev)) (zw : ZipWriter),
    xs.length = ds.length → (∀ r ∈ (runOps C zw (copyAll xs ds c)).1, Fine r) →
    (runOps C zw (copyAll xs ds c)).1.countP isListed = xs.length ∧
    ∀ k, k < xs.length → ((runOps C zw (copyAll xs ds c)).1.take k).countP isListed = k ∧
      ∃ r, (runOps C zw (copyAll xs ds c)).1[k]? = some (.whole r) ∧ Listed r
  | [], ds, zw, _, _ => by
    rw [copyAll]
    · exact ⟨rfl, fun k hk => absurd hk (Nat.not_lt_zero k)⟩
    · exact fun _ _ _ _ _ h => by cases h
  | x :: xs, [], zw, hl, _ => by cases hl
  | x :: xs, (d, evs) :: ds, zw, hl, hf => by
    rw [copyAll] at hf ⊢
    have hrun : (runOps C zw (.whole x.entry d false evs :: copyAll xs ds c)).1 =
        (runOp C zw (.whole x.entry d false evs)).1 :: (runOps C (runOp C zw (.whole x.entry d false evs)).2 (copyAll xs ds c)).1 :=
      rfl
    obtain ⟨r, hr⟩ : ∃ r, (runOp C zw (.whole x.entry d false evs)).1 = .whole r := ⟨_, rfl⟩
    rw [hrun, hr] at hf ⊢
    have h0 : Listed r := hf _ List.mem_cons_self
    have h1 : isListed (.whole r) = true := decide_eq_true h0
    obtain ⟨g1, g2⟩ := copyAll_results C c xs ds _ (Nat.succ.inj hl) fun r hr => hf r (List.mem_cons_of_mem _ hr)
    refine ⟨by rw [List.countP_cons_of_pos h1, g1, List.length_cons], fun k hk => ?_⟩
    cases k with
    | zero => exact ⟨rfl, r, rfl, h0⟩
    | succ k =>
      obtain ⟨g3, g4⟩ := g2 k (Nat.lt_of_succ_lt_succ hk)
      exact ⟨by rw [List.take_succ_cons, List.countP_cons_of_pos h1, g3], g4⟩

theorem copyAll_get (c : RString) : ∀ (xs : List StoredZipEntry) (ds : List (Bytes × List Ev)) (k : Nat) (x : StoredZipEntry)
    (d : Bytes) (evs : List Ev), xs[k]? = some x → ds[k]? = some (d, evs) →
    (copyAll xs ds c)[k]? = some (.whole x.entry d false evs)
  | [], _, _, _, _, _, h, _ => by cases h
  | _ :: _, [], _, _, _, _, _, h => by cases h
  | y :: xs, (d', evs') :: ds, 0, x, d, evs, h, h' => by cases h; cases h'; rfl
  | y :: xs, (d', evs') :: ds, k + 1, x, d, evs, h, h' => copyAll_get c xs ds k x d evs h h'

theorem copyAll_mem (c : RString) : ∀ (xs : List StoredZipEntry) (ds : List (Bytes × List Ev)) (op : Op),
    op ∈ copyAll xs ds c → (∀ f ∈ userFields op, OwnField f) ∨ ∃ y ∈ xs, userEntry op = some y.entry
  | [], ds, op, h => by
    rw [copyAll] at h
    · cases List.mem_singleton.1 h
      exact Or.inl fun _ h => by cases h
    · exact fun _ _ _ _ _ h => by cases h
  | x :: xs, [], op, h => by
    rw [copyAll] at h
    · cases List.mem_singleton.1 h
      exact Or.inl fun _ h => by cases h
    · exact fun _ _ _ _ _ _ h => by cases h
  | x :: xs, (d, evs) :: ds, op, h => by
    rw [copyAll] at h
    rcases List.mem_cons.1 h with rfl | h
    · exact Or.inr ⟨x, List.mem_cons_self, rfl⟩
    · exact (copyAll_mem c xs ds op h).imp id fun ⟨y, h1, h2⟩ => ⟨y, List.mem_cons_of_mem _ h1, h2⟩

theorem copyAll_comment (c : RString) : ∀ (xs : List StoredZipEntry) (ds : List (Bytes × List Ev)),
    finalComment none (copyAll xs ds c) = some c
  | [], ds => by
    rw [copyAll]
    · rfl
    · exact fun _ _ _ _ _ h => by cases h
  | x :: xs, [] => by
    rw [copyAll]
    · rfl
    · exact fun _ _ _ _ _ _ h => by cases h
  | x :: xs, (d, evs) :: ds => by
    rw [copyAll]
    exact copyAll_comment c xs ds

/-- C67. Take any archive that opens, whoever made it, and whose entries can all be read with the check; write all of its
entries, with their data, with any writer, in order, and its comment, to a new archive. If no call fails and the new archive
can be told from others (as in `Legible`) and is below 4 GiB, then it opens with copies of all the entries, in the same
order, with the same checksums, sizes and data, and with the same comment; and it can be copied again.
Missing from the full claim: entries with a ZIP64 field or with Info-ZIP unicode fields that contradict their name or comment
(as in C48); comments that are not UTF-8, which the writer cannot be given. -/
theorem C67_archive_partial (C : Codec) (hC : Lawful C) (b₀ : Build) (s₀ : RState) (f₀ : ZipFile)
    (h₀ : (openFile b₀ s₀).1 = .ok f₀) (sink sink' : Sink) (zw : ZipWriter) (h : Created sink zw) (hs : sink.bytes = [])
    (ds : List (Bytes × List Ev)) (c : RString) (hcm : c.bytes = f₀.comment.raw) (hcom : c.bytes.length ≤ 65535)
    (hlen : f₀.entries.length = ds.length)
    (hread : ∀ i x d evs, f₀.entries[i]? = some x → ds[i]? = some (d, evs) → Copyable x.entry ∧ d.length ≤ 0xFFFFFFFF ∧
      ∃ chunk s₁, 0 < chunk ∧ (checkedRead C f₀ i chunk s₁).1 = .ok d)
    (evs : List Ev) (hc : (runArchive C zw (copyAll f₀.entries ds c) evs).2.1 = .ok sink')
    (hfine : ∀ r ∈ (runArchive C zw (copyAll f₀.entries ds c) evs).1, Fine r ∧ ¬ TooMany r)
    (hlast : LastEnd sink'.bytes (endPosition sink'.bytes c.bytes))
    (hloc : HasLocator sink'.bytes (endPosition sink'.bytes c.bytes) →
      (runArchive C zw (copyAll f₀.entries ds c) evs).2.2.isZip64 = true)
    (hsmall : sink'.bytes.length ≤ 0xFFFFFFFF) (b : Build) (hb : f₀.entries.length ≤ b.maxVecEntries) :
    ∃ f : ZipFile, (∀ s : RState, s.data = sink'.bytes → Interrupted (openFile b s).1 ∨ (openFile b s).1 = .ok f) ∧
      f.comment.raw = f₀.comment.raw ∧
      List.Forall₂ (fun x y : StoredZipEntry => Copied x.entry y.entry ∧ y.entry.crc32 = x.entry.crc32 ∧ Copyable y.entry)
        f₀.entries f.entries ∧
      ∀ i d evs₁, ds[i]? = some (d, evs₁) → (∃ y, f.entries[i]? = some y ∧ y.entry.uncompressedSize.toNat = d.length) ∧
        ∀ chunk, 0 < chunk → ∀ s : RState, s.data = sink'.bytes →
          Interrupted (checkedRead C f i chunk s).1 ∨ (checkedRead C f i chunk s).1 = .ok d := by
  have hac : archiveComment (copyAll f₀.entries ds c) = c.bytes := by rw [archiveComment, copyAll_comment]
  have hrs : (runArchive C zw (copyAll f₀.entries ds c) evs).1 = (runOps C zw (copyAll f₀.entries ds c)).1 := rfl
  obtain ⟨r1, r2⟩ := copyAll_results C c f₀.entries ds zw hlen fun r hr => (hfine r (hrs ▸ hr)).1
  rw [← hrs] at r1 r2
  have hent : ∀ i x, f₀.entries[i]? = some x → ∃ d evs₁, ds[i]? = some (d, evs₁) := fun i x hx => by
    have : i < ds.length := hlen ▸ (List.getElem?_eq_some_iff.1 hx).1
    exact ⟨_, _, List.getElem?_eq_getElem this⟩
  obtain ⟨f, g1, g2, g3, g4⟩ := copied_at hC h₀ h hs hc (fun op ho => (copyAll_mem c _ _ op ho).imp id fun ⟨y, hy, hu⟩ => by
      obtain ⟨i, hi⟩ := List.getElem?_of_mem hy
      obtain ⟨d, evs₁, hd⟩ := hent i y hi
      exact ⟨y, hy, hu, (hread i y d evs₁ hi hd).1⟩) (hac ▸ hcom) (hac ▸ hlast) (hac ▸ hloc) (fun r hr => (hfine r hr).2)
    hsmall b (r1 ▸ hb)
  have hall : ∀ i x d evs₁, f₀.entries[i]? = some x → ds[i]? = some (d, evs₁) → ∃ y : StoredZipEntry, f.entries[i]? = some y ∧
      Copied x.entry y.entry ∧ y.entry.crc32 = x.entry.crc32 ∧ y.entry.uncompressedSize.toNat = d.length ∧ Copyable y.entry ∧
      ∀ chunk, 0 < chunk → ∀ s : RState, s.data = sink'.bytes →
        Interrupted (checkedRead C f i chunk s).1 ∨ (checkedRead C f i chunk s).1 = .ok d := fun i x d evs₁ hx hd => by
    obtain ⟨q1, q2, chunk, s₁, q3, q4⟩ := hread i x d evs₁ hx hd
    obtain ⟨r3, r, r4, r5⟩ := r2 i (List.getElem?_eq_some_iff.1 hx).1
    have := g4 i chunk s₁ x d hx q3 q4 q1 q2 i evs₁ r (copyAll_get c _ _ i x d evs₁ hx hd) r4 r5
    rwa [r3] at this
  refine ⟨f, g1, by rw [g3, ← hcm, hac], ?_, fun i d evs₁ hd => ?_⟩
  · refine List.forall₂_iff_get.2 ⟨by rw [g2, r1], fun i hi hi' => ?_⟩
    obtain ⟨d, evs₁, hd⟩ := hent i _ (List.getElem?_eq_getElem hi)
    obtain ⟨y, hy, k1, k2, _, k3, _⟩ := hall i _ d evs₁ (List.getElem?_eq_getElem hi) hd
    rw [List.getElem?_eq_getElem hi'] at hy
    cases hy
    exact ⟨k1, k2, k3⟩
  · have hi : i < f₀.entries.length := hlen ▸ (List.getElem?_eq_some_iff.1 hd).1
    obtain ⟨y, hy, _, _, k1, _, k2⟩ := hall i _ d evs₁ (List.getElem?_eq_getElem hi) hd
    exact ⟨⟨y, hy, k1⟩, k2⟩

theorem Samples.copied_archive :
    (runArchive Samples.markCodec Samples.fresh (copyAll Samples.foreignFile.entries [([1], Samples.eager), ([104, 105], Samples.slow)]
      ⟨[], by decide⟩) Samples.eager).1 = [.whole (.ok ()), .whole (.ok ()), .comment] ∧
    (runArchive Samples.markCodec Samples.fresh (copyAll Samples.foreignFile.entries [([1], Samples.eager), ([104, 105], Samples.slow)]
      ⟨[], by decide⟩) Samples.eager).2.1 = .ok ⟨Samples.copiedBytes, 0, 0⟩ := by decide +kernel

/-- Both entries of the foreign archive are copied, the second of them to a slow sink. -/
example (b : Build) (hb : 2 ≤ b.maxVecEntries) : ∃ f : ZipFile,
    (∀ s : RState, s.data = Samples.copiedBytes → Interrupted (openFile b s).1 ∨ (openFile b s).1 = .ok f) ∧
    List.Forall₂ (fun x y : StoredZipEntry => Copied x.entry y.entry ∧ y.entry.crc32 = x.entry.crc32 ∧ Copyable y.entry)
      Samples.foreignFile.entries f.entries ∧
    ∀ s : RState, s.data = Samples.copiedBytes → Interrupted (checkedRead Samples.markCodec f 1 9 s).1 ∨
      (checkedRead Samples.markCodec f 1 9 s).1 = .ok [104, 105] := by
  obtain ⟨f, h1, _, h2, h3⟩ := C67_archive_partial Samples.markCodec Samples.markCodec_lawful Samples.checkedBuild
    (Samples.prompt Samples.foreignBytes) Samples.foreignFile Samples.foreign_opens ⟨[], 0, 0⟩ ⟨Samples.copiedBytes, 0, 0⟩
    Samples.fresh .new rfl [([1], Samples.eager), ([104, 105], Samples.slow)] ⟨[], by decide⟩ rfl (by decide) rfl (by
      intro i x d evs hx hd
      match i, hx, hd with
      | 0, hx, hd =>
        cases hx; cases hd
        exact ⟨⟨fun _ h => (by cases h), fun _ h => (by cases h), fun _ h => (by cases h)⟩, by decide, 5,
          Samples.prompt Samples.foreignBytes, by decide, by decide +kernel⟩
      | 1, hx, hd =>
        cases hx; cases hd
        exact ⟨Samples.foreign_copyable, by decide, 5, Samples.prompt Samples.foreignBytes, by decide, by decide +kernel⟩
      | _ + 2, hx, hd => cases hd)
    Samples.eager Samples.copied_archive.2 (by
      rw [Samples.copied_archive.1]
      simp only [List.forall_mem_cons]
      exact ⟨⟨Or.inl rfl, fun h => (by cases h)⟩, ⟨Or.inl rfl, fun h => (by cases h)⟩, ⟨trivial, id⟩, fun _ h => (by cases h)⟩)
    (lastEnd_of_decide (by decide +kernel)) (by decide +kernel) (by decide +kernel) b hb
  exact ⟨f, h1, h2, fun s hs => (h3 1 _ _ rfl).2 9 (by decide) s hs⟩

end AsyncZip
