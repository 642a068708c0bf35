import Verif.Props.CopyAll
import Verif.Spec.Generations
/-!
# C102: copies of copies
-/

namespace AsyncZip
open Spec Rd

theorem SameText.kept {n r : ZipString} (h : SameText n r) : KeptText n r :=
  ⟨h.basic, h.text, h.alternative, fun hr => by
    obtain ⟨h1, h2, h3⟩ := h.raw hr
    exact ⟨h1, by rw [h2]; exact h1, fun hx => ⟨h3 hx, h2⟩⟩⟩

theorem KeptText.trans {n r q : ZipString} (h : KeptText n r) (h' : SameText r q) : KeptText n q := by
  refine ⟨h'.basic.trans h.basic, fun t ht he => ?_, fun t a ht ha hn => ?_, fun hr => ?_⟩
  · have h1 := h.text t ht he
    refine h'.text t h1 fun h0 => ?_
    have hb := h.basic
    rw [show r.asBytes = t from (asStr_ok h1).2.symm, show n.asBytes = t from (asStr_ok ht).2.symm, h0, he h0] at hb
    exact hb
  · exact h'.alternative t a (h.text t ht fun h0 => absurd h0 hn) (h.alternative t a ht ha hn) hn
  · obtain ⟨h1, h2, h3⟩ := h.raw hr
    cases he : r.encoding with
    | raw =>
      obtain ⟨g1, g2, g3⟩ := h'.raw he
      exact ⟨g1.trans h1, h'.basic.trans h2, fun hx => ⟨g3 (h1 ▸ hx), g2⟩⟩
    | utf8 =>
      have hr' : r.asStr = .ok r.raw := by unfold ZipString.asStr; rw [he]
      have hq := h'.text r.raw hr' fun h0 => by
        have h0 : r.asBytes = [] := h0
        rw [← h1, h0] at h2
        exact h2
      refine ⟨(asStr_ok hq).2.symm.trans h1, h'.basic.trans h2, fun hx => ?_⟩
      have := (h3 hx).1
      rw [he] at this
      cases this

theorem Copied.descended {x y : ZipEntry} (h : Copied x y) : Descended x y := by
  obtain ⟨lost, h1, h2⟩ := h.fields
  refine ⟨SameText.kept h.name, SameText.kept h.comment, h.method, h.date, h.internal, h.external, lost, h1, fun f hf => ?_⟩
  rcases h2 with rfl | ⟨g, rfl, hg⟩
  · cases hf
  · rw [List.mem_singleton.1 hf]
    exact hg

theorem descended_trans {x y z : ZipEntry} (h : Descended x y) (h' : Copied y z) : Descended x z := by
  obtain ⟨lost, h1, h2⟩ := h.fields
  obtain ⟨lost', h3, h4⟩ := (Copied.descended h').fields
  refine ⟨KeptText.trans h.name h'.name, KeptText.trans h.comment h'.comment, h'.method.trans h.method, h'.date.trans h.date,
    h'.internal.trans h.internal, h'.external.trans h.external, lost' ++ lost, by rw [h1, h3, List.append_assoc], fun f hf => ?_⟩
  rcases List.mem_append.1 hf with hf | hf
  · exact h4 f hf
  · exact h2 f hf

/-- One copy, by C67. -/
theorem copy_step {C : Codec} (hC : Lawful C) {f f' : ZipFile} {P : RState → Prop} {ds : List Bytes} {bytes : Bytes}
    (h : Copy C f P ds f' bytes) {b₀ : Build} {s₀ : RState} (h₀ : (openFile b₀ s₀).1 = .ok f)
    (hcopy : ∀ x ∈ f.entries, Copyable x.entry) (hd : ∀ d ∈ ds, d.length ≤ 0xFFFFFFFF) :
    (∃ b s, (openFile b s).1 = .ok f') ∧ f.entries.length = ds.length ∧ f'.comment.raw = f.comment.raw ∧
      List.Forall₂ (fun x y : StoredZipEntry => Copied x.entry y.entry ∧ y.entry.crc32 = x.entry.crc32 ∧ Copyable y.entry)
        f.entries f'.entries ∧
      ∀ i d, ds[i]? = some d → (∃ y, f'.entries[i]? = some y ∧ y.entry.uncompressedSize.toNat = d.length) ∧
        ∀ chunk, 0 < chunk → ∀ s : RState, s.data = bytes →
          Interrupted (checkedRead C f' i chunk s).1 ∨ (checkedRead C f' i chunk s).1 = .ok d := by
  obtain ⟨sink, sink', zw, evs, es, c, b, s, created, empty, all, sinks, read, comment, short, closed, rfl, fine, last, locator,
    small, room, source, opened⟩ := h
  have hz : (ds.zip es).length = ds.length := by rw [List.length_zip, sinks, Nat.min_self]
  obtain ⟨g, g1, g2, g3, g4⟩ := C67_archive_partial C hC b₀ s₀ f h₀ sink sink' zw created empty (ds.zip es) c comment short
    (all.trans hz.symm) (fun i x d evs hx hi => by
      obtain ⟨hi', _⟩ := List.getElem?_zip_eq_some.1 hi
      obtain ⟨chunk, s₁, k1, _, k2⟩ := read i d hi'
      exact ⟨hcopy x (List.mem_of_getElem? hx), hd d (List.mem_of_getElem? hi'), chunk, s₁, k1, k2⟩)
    evs closed fine last locator small b room
  have hg : g = f' := by
    rcases g1 s source with hi | hi
    · rw [opened] at hi
      exact absurd hi not_interrupted_ok
    · rw [opened] at hi
      exact (Except.ok.inj hi).symm
  subst hg
  refine ⟨⟨b, s, opened⟩, all, g2, g3, fun i d hi => ?_⟩
  have hlt : i < es.length := sinks ▸ (List.getElem?_eq_some_iff.1 hi).1
  exact g4 i d es[i] (List.getElem?_zip_eq_some.2 ⟨hi, List.getElem?_eq_getElem hlt⟩)

/-- C102. An archive, whoever made it, is copied by reading every entry with the check and writing it in one go, the copy is
copied in the same way, and so on, any number of times, by different builds, with writers in different configurations, and with
sources and sinks that behave differently each time: the last copy shows the same archive comment and the same entries in the
same order, with their names, comments, methods, dates, attributes, checksums and extra fields, and its entries have the data that
the first copier read from the original. That later copiers read the same data is not assumed.
Partial: entries with ZIP64 fields or with unicode fields that contradict them, and archives of more than 4 GiB, as for C67; for
entries with ZIP64 fields already the second copy can be wrong (`C48_twice_fails`). Fields without content at the end of an
entry's list are lost one after the other (`C54_empty_fails`). -/
theorem C102_generations_partial (C : Codec) (hC : Lawful C) (b₀ : Build) (s₀ : RState) (f₀ : ZipFile)
    (h₀ : (openFile b₀ s₀).1 = .ok f₀) (hcopy : ∀ x ∈ f₀.entries, Copyable x.entry) (ds : List Bytes)
    (hd : ∀ d ∈ ds, d.length ≤ 0xFFFFFFFF) (n : Nat) (f : ZipFile) (bytes : Bytes) (h : Generation C f₀ ds n f bytes) :
    f.comment.raw = f₀.comment.raw ∧
      List.Forall₂ (fun x y : StoredZipEntry => Descended x.entry y.entry ∧ y.entry.crc32 = x.entry.crc32 ∧ Copyable y.entry)
        f₀.entries f.entries ∧
      ∀ i d, ds[i]? = some d → (∃ y, f.entries[i]? = some y ∧ y.entry.uncompressedSize.toNat = d.length) ∧
        ∀ chunk, 0 < chunk → ∀ s : RState, s.data = bytes →
          Interrupted (checkedRead C f i chunk s).1 ∨ (checkedRead C f i chunk s).1 = .ok d := by
  suffices hh : (∃ b s, (openFile b s).1 = .ok f) ∧ f₀.entries.length = ds.length ∧ _ from hh.2.2
  induction h with
  | first h =>
    obtain ⟨h1, h2, h3, h4, h5⟩ := copy_step hC h h₀ hcopy hd
    exact ⟨h1, h2, h3, h4.imp fun x y hxy => ⟨Copied.descended hxy.1, hxy.2⟩, h5⟩
  | @next n f f' ds' bytes bytes' _ h' ih =>
    obtain ⟨⟨b, s, i1⟩, i2, i3, i4, i5⟩ := ih
    have hlen : ds'.length = ds.length := by
      cases h' with
      | made sink sink' zw evs es c b s created empty all => rw [← all, ← i4.length_eq, i2]
    have hsame : ds' = ds := by
      refine List.ext_getElem hlen fun i hi hi' => ?_
      cases h' with
      | made sink sink' zw evs es c b s created empty all sinks read =>
        obtain ⟨chunk, s₁, k1, k2, k3⟩ := read i _ (List.getElem?_eq_getElem hi)
        rcases (i5 i _ (List.getElem?_eq_getElem hi')).2 chunk k1 s₁ k2 with hr | hr
        · rw [k3] at hr
          exact absurd hr not_interrupted_ok
        · rw [k3] at hr
          exact Except.ok.inj hr
    subst hsame
    obtain ⟨h1, _, h3, h4, h5⟩ := copy_step hC h' i1 (fun y hy => by
      obtain ⟨k, hk⟩ := List.mem_iff_getElem?.1 hy
      obtain ⟨_, _, hx⟩ := forall₂_get' i4.flip hk
      exact hx.2.2) hd
    refine ⟨h1, i2, h3.trans i3, ?_, h5⟩
    refine List.forall₂_iff_get.2 ⟨i4.length_eq.trans h4.length_eq, fun k hk hk' => ?_⟩
    have a := (List.forall₂_iff_get.1 i4).2 k hk (h4.length_eq ▸ hk')
    have b := (List.forall₂_iff_get.1 h4).2 k (h4.length_eq ▸ hk') hk'
    exact ⟨descended_trans a.1 b.1, b.2.1.trans a.2.1, b.2.2⟩

/-! ## Concrete cases -/

/-- The copy of the foreign archive, opened. -/
def Samples.copiedFile : ZipFile :=
  { Samples.foreignFile with
    entries := Samples.foreignFile.entries.map fun x =>
      if x.fileOffset = 0 then { x with entry := { x.entry with attributeCompatibility := .unix } }
      else { x with fileOffset := 34, entry := { x.entry with attributeCompatibility := .unix } } }

theorem Samples.copied_opens : (openFile Samples.checkedBuild (Samples.prompt Samples.copiedBytes)).1 = .ok Samples.copiedFile := by
  decide +kernel

/-- Copying the copy. -/
theorem Samples.recopied_archive :
    (runArchive Samples.markCodec Samples.fresh (copyAll Samples.copiedFile.entries [([1], Samples.slow), ([104, 105], Samples.eager)]
      ⟨[], by decide⟩) Samples.slow).1 = [.whole (.ok ()), .whole (.ok ()), .comment] ∧
    (runArchive Samples.markCodec Samples.fresh (copyAll Samples.copiedFile.entries [([1], Samples.slow), ([104, 105], Samples.eager)]
      ⟨[], by decide⟩) Samples.slow).2.1 = .ok ⟨Samples.copiedBytes, 0, 0⟩ := by decide +kernel

/-- The foreign archive is copied, the copy is copied, and so on: a series of any length. -/
theorem Samples.generations : ∀ n, Generation Samples.markCodec Samples.foreignFile [[1], [104, 105]] n Samples.copiedFile Samples.copiedBytes
  | 0 => .first (.made ⟨[], 0, 0⟩ ⟨Samples.copiedBytes, 0, 0⟩ Samples.fresh Samples.eager [Samples.eager, Samples.slow] ⟨[], by decide⟩
      Samples.checkedBuild (Samples.prompt Samples.copiedBytes) .new rfl rfl rfl (by
        intro i d hd
        match i, hd with
        | 0, hd => cases hd; exact ⟨5, Samples.prompt Samples.foreignBytes, by decide, trivial, by decide +kernel⟩
        | 1, hd => cases hd; exact ⟨5, Samples.prompt Samples.foreignBytes, by decide, trivial, by decide +kernel⟩
        | _ + 2, hd => cases hd)
      rfl (by decide) Samples.copied_archive.2 rfl (by
        show ∀ r ∈ (runArchive Samples.markCodec Samples.fresh (copyAll Samples.foreignFile.entries
          [([1], Samples.eager), ([104, 105], Samples.slow)] ⟨[], by decide⟩) Samples.eager).1, _
        rw [Samples.copied_archive.1]
        simp only [List.forall_mem_cons]
        exact ⟨⟨Or.inl rfl, fun h => (by cases h)⟩, ⟨Or.inl rfl, fun h => (by cases h)⟩, ⟨trivial, id⟩, fun _ h => (by cases h)⟩)
      (lastEnd_of_decide (by decide +kernel)) (by decide +kernel) (by decide +kernel) (by decide) rfl Samples.copied_opens)
  | n + 1 => .next (Samples.generations n) (.made (ds := [[1], [104, 105]]) ⟨[], 0, 0⟩ ⟨Samples.copiedBytes, 0, 0⟩ Samples.fresh Samples.slow
      [Samples.slow, Samples.eager] ⟨[], by decide⟩
      Samples.checkedBuild (Samples.prompt Samples.copiedBytes) .new rfl rfl rfl (by
        intro i d hd
        match i, hd with
        | 0, hd => cases hd; exact ⟨5, Samples.prompt Samples.copiedBytes, by decide, rfl, by decide +kernel⟩
        | 1, hd => cases hd; exact ⟨3, Samples.prompt Samples.copiedBytes, by decide, rfl, by decide +kernel⟩
        | _ + 2, hd => cases hd)
      rfl (by decide) Samples.recopied_archive.2 rfl (by
        show ∀ r ∈ (runArchive Samples.markCodec Samples.fresh (copyAll Samples.copiedFile.entries
          [([1], Samples.slow), ([104, 105], Samples.eager)] ⟨[], by decide⟩) Samples.slow).1, _
        rw [Samples.recopied_archive.1]
        simp only [List.forall_mem_cons]
        exact ⟨⟨Or.inl rfl, fun h => (by cases h)⟩, ⟨Or.inl rfl, fun h => (by cases h)⟩, ⟨trivial, id⟩, fun _ h => (by cases h)⟩)
      (lastEnd_of_decide (by decide +kernel)) (by decide +kernel) (by decide +kernel) (by decide) rfl Samples.copied_opens)

/-- The name, with its alternative, and the data of the second entry after any number of copies. -/
example (n : Nat) (s : RState) (hs : s.data = Samples.copiedBytes) :
    Generation Samples.markCodec Samples.foreignFile [[1], [104, 105]] n Samples.copiedFile Samples.copiedBytes ∧
    (Interrupted (checkedRead Samples.markCodec Samples.copiedFile 1 9 s).1 ∨
      (checkedRead Samples.markCodec Samples.copiedFile 1 9 s).1 = .ok [104, 105]) :=
  ⟨Samples.generations n, ((C102_generations_partial Samples.markCodec Samples.markCodec_lawful Samples.checkedBuild
    (Samples.prompt Samples.foreignBytes) Samples.foreignFile Samples.foreign_opens (by
      intro x hx
      rcases List.mem_cons.1 hx with rfl | hx
      · exact ⟨fun _ h => (by cases h), fun _ h => (by cases h), fun _ h => (by cases h)⟩
      · rw [List.mem_singleton.1 hx]
        exact Samples.foreign_copyable)
    [[1], [104, 105]] (by decide) n Samples.copiedFile Samples.copiedBytes (Samples.generations n)).2.2 1 _ rfl).2 9 (by decide) s hs⟩

end AsyncZip
