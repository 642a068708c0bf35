import Verif.Proofs.Unicode
import Verif.Proofs.OpenSpec
/-!
# What the reader's entries are like
-/

namespace AsyncZip
open Spec Rd

theorem Blocks.short {data tail : Bytes} {rs : List (Nat × Bytes)} (h : Blocks data rs tail) : ∀ r ∈ rs, r.2.length ≤ 65535 := by
  induction h with
  | nil => exact fun _ h => (by cases h)
  | cons b rs tail _ _ ih =>
    intro r hr
    rcases List.mem_cons.1 hr with rfl | hr
    · have := fieldAt_lt' b 2 2
      simp only [List.length_take]
      omega
    · exact ih r hr

theorem Represents.own {f : ExtraField} {r : Nat × Bytes} (h : Represents f r) (hr : r.2.length ≤ 65535)
    (hz : ∀ z, f ≠ .zip64 z) : OwnField f := by
  obtain ⟨id, content⟩ := r
  refine ⟨hz, ?_⟩
  cases f with
  | zip64 z => exact absurd rfl (hz z)
  | unicodeComment i =>
    cases i with
    | v1 c t =>
      obtain ⟨_, h⟩ := h
      subst h
      simp only [List.length_append, List.length_cons, List.length_nil, leBytes_length] at hr
      show t.length ≤ 65530
      omega
    | unknown v d =>
      obtain ⟨_, h1, h2⟩ := h
      subst h2
      rw [List.length_cons] at hr
      exact ⟨h1, by omega⟩
  | unicodePath i =>
    cases i with
    | v1 c t =>
      obtain ⟨_, h⟩ := h
      subst h
      simp only [List.length_append, List.length_cons, List.length_nil, leBytes_length] at hr
      show t.length ≤ 65530
      omega
    | unknown v d =>
      obtain ⟨_, h1, h2⟩ := h
      subst h2
      rw [List.length_cons] at hr
      exact ⟨h1, by omega⟩
  | unknown u =>
    obtain ⟨h1, h2, h3, h4, h5, h6⟩ := h
    subst h4
    refine ⟨fun h => h1 ?_, fun h => h2 ?_, fun h => h3 ?_, by rw [h5, h6]⟩
    all_goals rw [h]; rfl

theorem parsed_own {b : Build} {data : Bytes} {us cs : UInt32} {fs : List ExtraField}
    (h : parseExtraFields b data us cs = .ok fs) : ∀ f ∈ fs, (∀ z, f ≠ .zip64 z) → OwnField f := by
  change parseExtraLoop b us cs data = .ok fs at h
  rcases parse_any b us cs data with ⟨fs', rs, tail, h1, h2, _, h4⟩ | ⟨e, h1⟩ | ⟨h1, _⟩
  · rw [h] at h1
    cases h1
    have hs := Blocks.short h2
    clear h h2
    induction h4 with
    | nil => exact fun _ h => (by cases h)
    | cons hr _ ih =>
      intro f hf hz
      rcases List.mem_cons.1 hf with rfl | hf
      · exact Represents.own hr (hs _ List.mem_cons_self) hz
      · exact ih (fun r hr => hs r (List.mem_cons_of_mem _ hr)) f hf hz
  · rw [h] at h1; cases h1
  · rw [h] at h1; cases h1

/-- An entry as the reader makes it. -/
structure Made (e : ZipEntry) : Prop where
  name : Constructed e.filename
  comment : Constructed e.comment
  own : ∀ f ∈ e.extraFields, (∀ z, f ≠ .zip64 z) → OwnField f

theorem cdRecord_made {b : Build} {s s' : RState} {e : StoredZipEntry} (h : cdRecord b s = (.ok e, s')) : Made e.entry := by
  unfold cdRecord at h
  simp only [bind_ok_iff] at h
  obtain ⟨_, _, _, hd, _, _, fb, _, _, c, _, _, x, _, _, fs, _, hfs, cb, _, _, h⟩ := h
  have hp : parseExtraFields b x hd.uncompressedSize hd.compressedSize = .ok fs := congrArg Prod.fst hfs
  cases h
  exact ⟨detectFilename_constructed _ _ _, detectComment_constructed _ _ _, parsed_own hp⟩

theorem cdLoop_made {b : Build} : ∀ (n : Nat) {s s' : RState} {es : List StoredZipEntry}, cdLoop b n s = (.ok es, s') →
    ∀ e ∈ es, Made e.entry := by
  intro n
  induction n with
  | zero => intro s s' es h; cases h; exact fun _ h => (by cases h)
  | succ n ih =>
    intro s s' es h
    unfold cdLoop at h
    simp only [bind_ok_iff] at h
    obtain ⟨e, _, h1, es', _, h2, h⟩ := h
    cases h
    intro x hx
    rcases List.mem_cons.1 hx with rfl | hx
    · exact cdRecord_made h1
    · exact ih h2 x hx

theorem openFile_made {b : Build} {s s' : RState} {f : ZipFile} (h : openFile b s = (.ok f, s')) :
    ∀ e ∈ f.entries, Made e.entry := by
  unfold openFile at h
  simp only [bind_ok_iff] at h
  obtain ⟨o, _, _, _, _, _, eo, _, _, cm, _, _, ⟨rc, z⟩, _, _, h⟩ := h
  simp only at h
  split at h
  · cases h
  · simp only [bind_ok_iff] at h
    obtain ⟨_, _, _, es, _, h1, h⟩ := h
    cases h
    unfold cd at h1
    split at h1
    · cases h1
    · exact cdLoop_made _ h1

theorem lfh_made {b : Build} {s s' : RState} {e : ZipEntry} (h : lfh b s = (.ok (some e), s')) : Made e := by
  unfold lfh at h
  rw [bind_ok_iff] at h
  obtain ⟨sig, _, _, h⟩ := h
  simp only at h
  split at h
  · simp only [bind_ok_iff] at h
    obtain ⟨hd, _, _, fb, _, _, c, _, _, x, _, _, fs, _, hfs, h⟩ := h
    have hp : parseExtraFields b x hd.uncompressedSize hd.compressedSize = .ok fs := congrArg Prod.fst hfs
    split at h
    · cases h
    · split at h
      · cases h
      · cases h
        exact ⟨detectFilename_constructed _ _ _, .new [] .utf8, parsed_own hp⟩
  · split at h
    · cases h
    · cases h

end AsyncZip
