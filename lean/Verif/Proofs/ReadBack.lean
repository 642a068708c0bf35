import Verif.Proofs.Reopen
import Verif.Proofs.WriteEmits
import Verif.Proofs.OpenSpec
import Verif.Spec.RoundTrip
/-!
# Reading back what the writer recorded
-/

namespace AsyncZip
open Spec

/-! ## Extra fields -/

theorem OwnField.wf {f : ExtraField} (h : OwnField f) (us cs : UInt32) : WellFormed us cs f := by
  obtain ⟨h1, h2⟩ := h
  cases f with
  | zip64 z => exact absurd rfl (h1 z)
  | unicodeComment i => cases i <;> exact h2
  | unicodePath i => cases i <;> exact h2
  | unknown u => exact h2

theorem own_noZip64 {fs : List ExtraField} (h : ∀ f ∈ fs, OwnField f) : NoZip64 fs := fun f hf => (h f hf).1

theorem mem_count {fs : List ExtraField} {f : ExtraField} (h : f ∈ fs) : f.countBytes ≤ extraCountBytes fs := by
  induction fs with
  | nil => cases h
  | cons g gs ih =>
    rw [extraCountBytes]
    rcases List.mem_cons.1 h with rfl | h
    · omega
    · have := ih h; omega

/-- What the writer adds is well-formed as long as it fits. -/
theorem withUnicode_wf {e : ZipEntry} {fs : List ExtraField} {us cs : UInt32} (h : ∀ f ∈ fs, WellFormed us cs f)
    (hn : extraCountBytes (withUnicode e fs) < 2 ^ 16) : ∀ f ∈ withUnicode e fs, WellFormed us cs f := by
  intro f hf
  have hc := mem_count hf
  rcases mem_withUnicode hf with hf | ⟨c, u, rfl⟩ | ⟨c, u, rfl⟩
  · exact h f hf
  · simp only [ExtraField.countBytes, InfoZipField.countBytes] at hc
    simp only [WellFormed]; omega
  · simp only [ExtraField.countBytes, InfoZipField.countBytes] at hc
    simp only [WellFormed]; omega

theorem zip64_putPath (c : UInt32) (u : Bytes) (fs : List ExtraField) :
    getZip64ExtraField (putUnicodePath c u fs) = getZip64ExtraField fs := by
  induction fs with
  | nil => rfl
  | cons f fs ih =>
    cases f with
    | unicodePath i => cases i <;> rfl
    | zip64 z => rfl
    | unicodeComment i => exact ih
    | unknown i => exact ih

theorem zip64_putComment (c : UInt32) (u : Bytes) (fs : List ExtraField) :
    getZip64ExtraField (putUnicodeComment c u fs) = getZip64ExtraField fs := by
  induction fs with
  | nil => rfl
  | cons f fs ih =>
    cases f with
    | unicodeComment i => cases i <;> rfl
    | zip64 z => rfl
    | unicodePath i => exact ih
    | unknown i => exact ih

theorem zip64_withPath (n : ZipString) (fs : List ExtraField) :
    getZip64ExtraField (withPath n fs) = getZip64ExtraField fs := by
  unfold withPath
  split
  · split
    · rfl
    · exact zip64_putPath _ _ _
  · rfl

theorem zip64_withUnicode (e : ZipEntry) (fs : List ExtraField) :
    getZip64ExtraField (withUnicode e fs) = getZip64ExtraField fs := by
  unfold withUnicode
  split
  · rfl
  · unfold withComment
    split
    · split
      · exact zip64_withPath _ _
      · rw [zip64_putComment, zip64_withPath]
    · exact zip64_withPath _ _

theorem putZip64_path (us cs off : UInt64) (c : UInt32) (u : Bytes) (fs : List ExtraField) (h : getZip64ExtraField fs ≠ none) :
    putZip64Sizes us cs off (putUnicodePath c u fs) = putUnicodePath c u (putZip64Sizes us cs off fs) := by
  induction fs with
  | nil => exact absurd rfl h
  | cons f fs ih =>
    cases f with
    | unicodePath i => cases i <;> rfl
    | zip64 z => rfl
    | unicodeComment i => exact congrArg _ (ih h)
    | unknown i => exact congrArg _ (ih h)

theorem putZip64_comment (us cs off : UInt64) (c : UInt32) (u : Bytes) (fs : List ExtraField)
    (h : getZip64ExtraField fs ≠ none) :
    putZip64Sizes us cs off (putUnicodeComment c u fs) = putUnicodeComment c u (putZip64Sizes us cs off fs) := by
  induction fs with
  | nil => exact absurd rfl h
  | cons f fs ih =>
    cases f with
    | unicodeComment i => cases i <;> rfl
    | zip64 z => rfl
    | unicodePath i => exact congrArg _ (ih h)
    | unknown i => exact congrArg _ (ih h)

theorem putZip64_withUnicode (us cs off : UInt64) (e : ZipEntry) (fs : List ExtraField) (h : getZip64ExtraField fs ≠ none) :
    putZip64Sizes us cs off (withUnicode e fs) = withUnicode e (putZip64Sizes us cs off fs) := by
  unfold withUnicode
  split
  · rfl
  · have hp : putZip64Sizes us cs off (withPath e.filename fs) = withPath e.filename (putZip64Sizes us cs off fs) := by
      unfold withPath
      split
      · split
        · rfl
        · exact putZip64_path _ _ _ _ _ _ h
      · rfl
    unfold withComment
    split
    · split
      · exact hp
      · rw [putZip64_comment _ _ _ _ _ _ (by rw [zip64_withPath]; exact h), hp]
    · exact hp

theorem putZip64_own (us cs off : UInt64) (a b o : Option UInt64) (fs : List ExtraField) (h : NoZip64 fs) :
    putZip64Sizes us cs off (fs ++ [zip64Of a b o]) = fs ++ [zip64Of (some us) (some cs) (some off)] := by
  induction fs with
  | nil => rfl
  | cons f fs ih =>
    have ih := ih fun g hg => h g (List.mem_cons_of_mem _ hg)
    cases f with
    | zip64 z => exact absurd rfl (h _ List.mem_cons_self z)
    | unicodePath i => exact congrArg _ ih
    | unicodeComment i => exact congrArg _ ih
    | unknown i => exact congrArg _ ih

theorem zip64_own (a b o : Option UInt64) (fs : List ExtraField) (h : NoZip64 fs) :
    getZip64ExtraField (fs ++ [zip64Of a b o]) = some ⟨ID_ZIP64, a, b, o, none⟩ :=
  getZip64_first fun g hg => h _ hg g rfl

theorem zip64_none {fs : List ExtraField} (h : NoZip64 fs) : getZip64ExtraField fs = none :=
  getZip64_none fun g hg => h _ hg g rfl

/-- The stream's central record has the same fields as the whole writer's, always with an offset. -/
theorem stream_fields (us cs off : UInt64) (e : ZipEntry) (h : NoZip64 e.extraFields) :
    putZip64Sizes us cs off (streamEntry false e).extraFields =
      withUnicode e (e.extraFields ++ [zip64Of (some us) (some cs) (some off)]) := by
  have : (streamEntry false e).extraFields =
      withUnicode e (e.extraFields ++ [zip64Of (some e.uncompressedSize) (some e.compressedSize) none]) := rfl
  rw [this, putZip64_withUnicode _ _ _ _ _ (by rw [zip64_own _ _ _ _ h]; exact fun h => by cases h), putZip64_own _ _ _ _ _ _ _ h]

/-! ## What parsing drops -/

/-- The fields without a last one that has no content. -/
def trim (fs : List ExtraField) : List ExtraField :=
  match fs.getLast? with
  | some f => if EmptyContent f then fs.dropLast else fs
  | none => fs

theorem trim_cases (fs : List ExtraField) : trim fs = fs ∨ ∃ f, fs = trim fs ++ [f] ∧ EmptyContent f := by
  unfold trim
  cases h : fs.getLast? with
  | none => exact Or.inl rfl
  | some f =>
    simp only
    split
    · rename_i he
      refine Or.inr ⟨f, ?_, he⟩
      exact (List.dropLast_append_getLast? f h).symm
    · exact Or.inl rfl

theorem zip64_append_other {fs : List ExtraField} {f : ExtraField} (h : ∀ z, f ≠ .zip64 z) :
    getZip64ExtraField (fs ++ [f]) = getZip64ExtraField fs := by
  induction fs with
  | nil =>
    cases f with
    | zip64 z => exact absurd rfl (h z)
    | _ => rfl
  | cons g gs ih =>
    cases g with
    | zip64 z => rfl
    | unicodePath i => exact ih
    | unicodeComment i => exact ih
    | unknown i => exact ih

theorem zip64_trim {fs : List ExtraField} (h : ∀ z, .zip64 z ∈ fs → ¬ EmptyContent (.zip64 z)) :
    getZip64ExtraField (trim fs) = getZip64ExtraField fs := by
  rcases trim_cases fs with ht | ⟨f, hf, he⟩
  · rw [ht]
  · have : ∀ z, f ≠ .zip64 z := by
      intro z hz
      subst hz
      exact h z (by rw [hf]; exact List.mem_append_right _ List.mem_cons_self) he
    have h2 := zip64_append_other (fs := trim fs) this
    rw [← hf] at h2
    exact h2.symm

theorem path_none {gs : List ExtraField} (n : Bytes) (h : ∀ f ∈ gs, ∀ i, f ≠ .unicodePath i) :
    findUnicodePath n gs = none := by
  unfold findUnicodePath
  rw [List.findSome?_eq_none_iff]
  intro f hf
  have := h f hf
  cases f with
  | unicodePath i => exact absurd rfl (this i)
  | _ => rfl

theorem path_append {fs gs : List ExtraField} (n : Bytes) (h : ∀ f ∈ gs, ∀ i, f ≠ .unicodePath i) :
    findUnicodePath n (fs ++ gs) = findUnicodePath n fs := by
  have h1 : findUnicodePath n (fs ++ gs) = (findUnicodePath n fs).or (findUnicodePath n gs) := List.findSome?_append
  rw [h1, path_none n h]
  cases findUnicodePath n fs <;> rfl

theorem comment_none {gs : List ExtraField} (n : Bytes) (h : ∀ f ∈ gs, ∀ i, f ≠ .unicodeComment i) :
    findUnicodeComment n gs = none := by
  unfold findUnicodeComment
  rw [List.findSome?_eq_none_iff]
  intro f hf
  have := h f hf
  cases f with
  | unicodeComment i => exact absurd rfl (this i)
  | _ => rfl

theorem comment_append {fs gs : List ExtraField} (n : Bytes) (h : ∀ f ∈ gs, ∀ i, f ≠ .unicodeComment i) :
    findUnicodeComment n (fs ++ gs) = findUnicodeComment n fs := by
  have h1 : findUnicodeComment n (fs ++ gs) = (findUnicodeComment n fs).or (findUnicodeComment n gs) := List.findSome?_append
  rw [h1, comment_none n h]
  cases findUnicodeComment n fs <;> rfl

theorem empty_not_unicode {f : ExtraField} (h : EmptyContent f) :
    (∀ i, f ≠ .unicodePath i) ∧ ∀ i, f ≠ .unicodeComment i := by
  cases f with
  | unicodePath i => exact h.elim
  | unicodeComment i => exact h.elim
  | zip64 z => exact ⟨fun _ h => (by cases h), fun _ h => (by cases h)⟩
  | unknown u => exact ⟨fun _ h => (by cases h), fun _ h => (by cases h)⟩

theorem path_trim (n : Bytes) (fs : List ExtraField) : findUnicodePath n (trim fs) = findUnicodePath n fs := by
  rcases trim_cases fs with ht | ⟨f, hf, he⟩
  · rw [ht]
  · have h2 := path_append (fs := trim fs) (gs := [f]) n fun g hg => by
      rw [List.mem_singleton.1 hg]; exact (empty_not_unicode he).1
    rw [← hf] at h2
    exact h2.symm

theorem comment_trim (n : Bytes) (fs : List ExtraField) : findUnicodeComment n (trim fs) = findUnicodeComment n fs := by
  rcases trim_cases fs with ht | ⟨f, hf, he⟩
  · rw [ht]
  · have h2 := comment_append (fs := trim fs) (gs := [f]) n fun g hg => by
      rw [List.mem_singleton.1 hg]; exact (empty_not_unicode he).2
    rw [← hf] at h2
    exact h2.symm

/-! ## Unicode fields among the others -/

def isPathField : ExtraField → Bool
  | .unicodePath _ => true
  | _ => false

def isCommentField : ExtraField → Bool
  | .unicodeComment _ => true
  | _ => false

/-- The unicode path fields. -/
def paths (fs : List ExtraField) : List ExtraField := fs.filter isPathField

/-- The unicode comment fields. -/
def comments (fs : List ExtraField) : List ExtraField := fs.filter isCommentField

theorem find_paths (n : Bytes) (fs : List ExtraField) : findUnicodePath n (paths fs) = findUnicodePath n fs := by
  unfold findUnicodePath paths
  induction fs with
  | nil => rfl
  | cons f fs ih =>
    cases f with
    | unicodePath i =>
      rw [List.filter_cons_of_pos rfl, List.findSome?_cons, List.findSome?_cons, ih]
    | _ => rw [List.filter_cons_of_neg (fun h => by cases h), List.findSome?_cons, ih]

theorem find_comments (n : Bytes) (fs : List ExtraField) : findUnicodeComment n (comments fs) = findUnicodeComment n fs := by
  unfold findUnicodeComment comments
  induction fs with
  | nil => rfl
  | cons f fs ih =>
    cases f with
    | unicodeComment i =>
      rw [List.filter_cons_of_pos rfl, List.findSome?_cons, List.findSome?_cons, ih]
    | _ => rw [List.filter_cons_of_neg (fun h => by cases h), List.findSome?_cons, ih]

theorem paths_putComment (c : UInt32) (u : Bytes) (fs : List ExtraField) :
    paths (putUnicodeComment c u fs) = paths fs := by
  unfold paths
  induction fs with
  | nil => rfl
  | cons f fs ih =>
    cases f with
    | unicodeComment i => cases i <;> rfl
    | unicodePath i => exact congrArg (ExtraField.unicodePath i :: ·) ih
    | zip64 z => exact ih
    | unknown i => exact ih

theorem comments_putPath (c : UInt32) (u : Bytes) (fs : List ExtraField) :
    comments (putUnicodePath c u fs) = comments fs := by
  unfold comments
  induction fs with
  | nil => rfl
  | cons f fs ih =>
    cases f with
    | unicodePath i => cases i <;> rfl
    | unicodeComment i => exact congrArg (ExtraField.unicodeComment i :: ·) ih
    | zip64 z => exact ih
    | unknown i => exact ih

theorem paths_putPath (c : UInt32) (u : Bytes) (fs : List ExtraField) :
    paths (putUnicodePath c u fs) = putUnicodePath c u (paths fs) := by
  unfold paths
  induction fs with
  | nil => rfl
  | cons f fs ih =>
    cases f with
    | unicodePath i => cases i <;> rfl
    | unicodeComment i => exact ih
    | zip64 z => exact ih
    | unknown i => exact ih

theorem comments_putComment (c : UInt32) (u : Bytes) (fs : List ExtraField) :
    comments (putUnicodeComment c u fs) = putUnicodeComment c u (comments fs) := by
  unfold comments
  induction fs with
  | nil => rfl
  | cons f fs ih =>
    cases f with
    | unicodeComment i => cases i <;> rfl
    | unicodePath i => exact ih
    | zip64 z => exact ih
    | unknown i => exact ih

theorem paths_withPath (n : ZipString) (fs : List ExtraField) : paths (withPath n fs) = withPath n (paths fs) := by
  unfold withPath
  split
  · split
    · rfl
    · exact paths_putPath _ _ _
  · rfl

theorem comments_withPath (n : ZipString) (fs : List ExtraField) : comments (withPath n fs) = comments fs := by
  unfold withPath
  split
  · split
    · rfl
    · exact comments_putPath _ _ _
  · rfl

theorem paths_withComment (n : ZipString) (fs : List ExtraField) : paths (withComment n fs) = paths fs := by
  unfold withComment
  split
  · split
    · rfl
    · exact paths_putComment _ _ _
  · rfl

theorem comments_withComment (n : ZipString) (fs : List ExtraField) :
    comments (withComment n fs) = withComment n (comments fs) := by
  unfold withComment
  split
  · split
    · rfl
    · exact comments_putComment _ _ _
  · rfl

theorem paths_withUnicode (e : ZipEntry) (fs : List ExtraField) :
    paths (withUnicode e fs) = if bothUtf8 e then paths fs else withPath e.filename (paths fs) := by
  unfold withUnicode
  split
  · rfl
  · rw [paths_withComment, paths_withPath]

theorem comments_withUnicode (e : ZipEntry) (fs : List ExtraField) :
    comments (withUnicode e fs) = if bothUtf8 e then comments fs else withComment e.comment (comments fs) := by
  unfold withUnicode
  split
  · rfl
  · rw [comments_withComment, comments_withPath]

theorem paths_zip64 (fs : List ExtraField) (a b o : Option UInt64) : paths (fs ++ [zip64Of a b o]) = paths fs := by
  unfold paths
  rw [List.filter_append]
  exact List.append_nil _

theorem comments_zip64 (fs : List ExtraField) (a b o : Option UInt64) : comments (fs ++ [zip64Of a b o]) = comments fs := by
  unfold comments
  rw [List.filter_append]
  exact List.append_nil _

/-! ## One record -/

theorem tryFrom_toU16 (m : Compression) : Compression.tryFrom m.toU16 = .ok m := by cases m <;> rfl

theorem diskFields_zero {fs : List ExtraField} (h : ∀ z, .zip64 z ∈ fs → z.diskStartNumber = none) : diskFields fs = 0 := by
  induction fs with
  | nil => rfl
  | cons f fs ih =>
    have ih := ih fun z hz => h z (List.mem_cons_of_mem _ hz)
    cases f with
    | zip64 z => simp [diskFields, ih, h z List.mem_cons_self]
    | unicodePath i => exact ih
    | unicodeComment i => exact ih
    | unknown i => exact ih

theorem toUInt32_toUInt64 {u : UInt64} (h : u ≤ 0xFFFFFFFF) : u.toUInt32.toUInt64 = u := by
  apply UInt64.toNat_inj.1
  have : u.toNat ≤ 0xFFFFFFFF := h
  rw [UInt32.toNat_toUInt64, UInt64.toNat_toUInt32]
  omega

theorem toUInt32_max {u : UInt64} (h : u ≤ 0xFFFFFFFF) (hn : u ≠ 0xFFFFFFFF) : u.toUInt32 ≠ 0xFFFFFFFF := by
  intro hu
  apply hn
  rw [← toUInt32_toUInt64 h, hu]
  rfl

/-- What the recorded extra fields and sizes mean to the reader. -/
structure Decodes (e : ZipEntry) (us cs : UInt64) (off : Nat) (h : CentralDirectoryRecord) (FS : List ExtraField) : Prop where
  wf : ∀ f ∈ FS, WellFormed h.uncompressedSize h.compressedSize f
  path : paths FS = paths (withUnicode e e.extraFields)
  comment : comments FS = comments (withUnicode e e.extraFields)
  sizes : getCombinedSizes h.uncompressedSize h.compressedSize (getZip64ExtraField FS) = (us, cs)
  offset : (selectOffset h.lhOffset (getZip64ExtraField FS)).toNat = off
  disk : ∀ z, .zip64 z ∈ FS → z.diskStartNumber = none ∧ ¬ EmptyContent (.zip64 z)

theorem zip64_members {e : ZipEntry} {gs : List ExtraField} (hno : NoZip64 gs) {a b o : Option UInt64}
    (hne : ¬ EmptyContent (zip64Of a b o)) (z : Zip64Field) (hz : .zip64 z ∈ withUnicode e (gs ++ [zip64Of a b o])) :
    z.diskStartNumber = none ∧ ¬ EmptyContent (.zip64 z) := by
  rcases mem_withUnicode hz with hf | ⟨c, u, hf⟩ | ⟨c, u, hf⟩
  · rcases List.mem_append.1 hf with hf | hf
    · exact absurd rfl (hno _ hf z)
    · have hf := List.mem_singleton.1 hf
      rw [hf]
      refine ⟨?_, hne⟩
      simp only [zip64Of, ExtraField.zip64.injEq] at hf
      rw [hf]
  · cases hf
  · cases hf

theorem Carries.decodes {force streamed : Bool} {e : ZipEntry} {us cs : UInt64} {off : Nat} {h : CentralDirectoryRecord}
    {FS : List ExtraField} (hc : Carries force streamed e us cs off h FS) (hown : ∀ f ∈ e.extraFields, OwnField f)
    (hn : extraCountBytes FS < 2 ^ 16) (ho : off < 2 ^ 64)
    (hclash : streamed = false → 0xFFFFFFFF < off → us ≤ 0xFFFFFFFF → cs ≤ 0xFFFFFFFF → us ≠ 0xFFFFFFFF ∧ cs ≠ 0xFFFFFFFF) :
    Decodes e us cs off h FS := by
  have hno := own_noZip64 hown
  cases hc with
  | plain hs hu hc ho' h1 h2 h3 =>
    have hz : getZip64ExtraField (withUnicode e e.extraFields) = none := by rw [zip64_withUnicode, zip64_none hno]
    refine ⟨withUnicode_wf (fun f hf => OwnField.wf (hown f hf) _ _) hn, rfl, rfl, ?_, ?_, ?_⟩
    · rw [hz, h1, h2]
      simp only [getCombinedSizes, toUInt32_toUInt64 hu, toUInt32_toUInt64 hc]
    · rw [hz, h3]
      simp only [selectOffset, UInt32.toNat_toUInt64, UInt32.toNat_ofNat']
      omega
    · intro z hz
      rcases mem_withUnicode hz with hf | ⟨c, u, hf⟩ | ⟨c, u, hf⟩
      · exact absurd rfl (hno _ hf z)
      · cases hf
      · cases hf
  | big hs hb h1 h2 h3 =>
    have hz : getZip64ExtraField (withUnicode e (e.extraFields ++ [zip64Of (some us) (some cs) (farField off)])) =
        some ⟨ID_ZIP64, some us, some cs, farField off, none⟩ := by rw [zip64_withUnicode, zip64_own _ _ _ _ hno]
    refine ⟨withUnicode_wf (fun f hf => ?_) hn, ?_, ?_, ?_, ?_, zip64_members (own_noZip64 hown) (by simp [zip64Of, EmptyContent])⟩
    · rcases List.mem_append.1 hf with hf | hf
      · exact OwnField.wf (hown f hf) _ _
      · rw [List.mem_singleton.1 hf, h1, h2]
        simp [zip64Of, WellFormed, ID_ZIP64]
    · rw [paths_withUnicode, paths_withUnicode, paths_zip64]
    · rw [comments_withUnicode, comments_withUnicode, comments_zip64]
    · rw [hz, h1, h2]
      rfl
    · rw [hz, h3]
      unfold farField
      simp only [selectOffset, NON_ZIP64_MAX_SIZE]
      split
      · rename_i hle
        split
        · simp only [Option.getD_none, UInt32.toNat_toUInt64, UInt32.toNat_ofNat']
          omega
        · simp only [UInt32.toNat_toUInt64, UInt32.toNat_ofNat']
          omega
      · rw [if_pos (by decide), Option.getD_some, UInt64.toNat_ofNat']
        omega
  | far hs hu hc ho' h1 h2 h3 =>
    have hz : getZip64ExtraField (withUnicode e e.extraFields ++ [zip64Of none none (some (UInt64.ofNat off))]) =
        some ⟨ID_ZIP64, none, none, some (UInt64.ofNat off), none⟩ := zip64_own _ _ _ _ (noZip64_withUnicode hno)
    obtain ⟨hu1, hc1⟩ := hclash hs (by omega) hu hc
    refine ⟨fun f hf => ?_, ?_, ?_, ?_, ?_, ?_⟩
    · rcases List.mem_append.1 hf with hf | hf
      · refine withUnicode_wf (fun f hf => OwnField.wf (hown f hf) _ _) ?_ f hf
        rw [extraCount_append] at hn
        omega
      · rw [List.mem_singleton.1 hf, h1, h2]
        simp [zip64Of, WellFormed, ID_ZIP64, toUInt32_max hu hu1, toUInt32_max hc hc1]
    · rw [paths_zip64]
    · rw [comments_zip64]
    · rw [hz, h1, h2]
      simp only [getCombinedSizes, Option.getD_none, toUInt32_toUInt64 hu, toUInt32_toUInt64 hc]
    · rw [hz, h3]
      simp only [selectOffset, NON_ZIP64_MAX_SIZE, if_pos, Option.getD_some, UInt64.toNat_ofNat']
      omega
    · intro z hz
      rcases List.mem_append.1 hz with hf | hf
      · exact absurd rfl (noZip64_withUnicode hno _ hf z)
      · have hf := List.mem_singleton.1 hf
        rw [hf]
        refine ⟨?_, by simp [zip64Of, EmptyContent]⟩
        simp only [zip64Of, ExtraField.zip64.injEq] at hf
        rw [hf]
  | stream hf hs h1 h2 h3 =>
    rw [stream_fields _ _ _ _ hno] at hn ⊢
    have hz : getZip64ExtraField (withUnicode e (e.extraFields ++ [zip64Of (some us) (some cs) (some (UInt64.ofNat off))])) =
        some ⟨ID_ZIP64, some us, some cs, some (UInt64.ofNat off), none⟩ := by rw [zip64_withUnicode, zip64_own _ _ _ _ hno]
    refine ⟨withUnicode_wf (fun f hf => ?_) hn, ?_, ?_, ?_, ?_, zip64_members (own_noZip64 hown) (by simp [zip64Of, EmptyContent])⟩
    · rcases List.mem_append.1 hf with hf | hf
      · exact OwnField.wf (hown f hf) _ _
      · rw [List.mem_singleton.1 hf, h1, h2]
        simp [zip64Of, WellFormed, ID_ZIP64]
    · rw [paths_withUnicode, paths_withUnicode, paths_zip64]
    · rw [comments_withUnicode, comments_withUnicode, comments_zip64]
    · rw [hz, h1, h2]
      rfl
    · rw [hz, h3]
      simp only [selectOffset, NON_ZIP64_MAX_SIZE, if_pos, Option.getD_some, UInt64.toNat_ofNat']
      omega

theorem parse_trim {b : Build} {us cs : UInt32} {fs : List ExtraField} {xb : Bytes}
    (hwf : ∀ f ∈ fs, WellFormed us cs f) (hx : extraAsBytes fs = .ok xb) : parseExtraFields b xb us cs = .ok (trim fs) :=
  parse_wf b us cs fs hwf xb hx

/-- The names the reader gives to an entry recorded by the writer. -/
def nameRead (e : ZipEntry) : ZipString :=
  detectFilename e.filename.basic (bothUtf8 e) (withUnicode e e.extraFields)

/-- The comment the reader gives to an entry recorded by the writer. -/
def commentRead (e : ZipEntry) : ZipString :=
  detectComment e.comment.basic (bothUtf8 e) (withUnicode e e.extraFields)

theorem Good.reads {b : Build} {force : Bool} {off : Nat} {x : Bytes} {l : Listing} {c : CdEntry} (g : Good force off x l c)
    (hown : ∀ f ∈ l.entry.extraFields, OwnField f) (ho : off < 2 ^ 64) (hclash : ¬ Clash off l) :
    ∃ e, Reads b c e ∧ ReadAs force off l e ∧ e.entry.filename = nameRead l.entry ∧ e.entry.comment = commentRead l.entry ∧
      e.entry.extraFields = trim c.entry.extraFields ∧
      e.headerSize = 30 + l.entry.filename.basic.length + extraCountBytes c.entry.extraFields := by
  have d := g.describes
  have hrec : l.streamed = false → l.recorded force = (l.us, l.cs) := by
    intro h
    rw [Listing.recorded, h, Bool.and_false]
    rfl
  have dec := d.carries.decodes hown g.fits ho fun hs hoff hu hc => by
    rw [hrec hs] at hu hc ⊢
    exact ⟨fun h => hclash ⟨hs, hoff, hu, hc, Or.inl h⟩, fun h => hclash ⟨hs, hoff, hu, hc, Or.inr h⟩⟩
  obtain ⟨xb, hx⟩ := extraAsBytes_ok _ g.fits
  have hlen := extraAsBytes_length hx
  rw [diskFields_zero fun z hz => (dec.disk z hz).1] at hlen
  refine ⟨_, ⟨l.entry.compression, xb, trim c.entry.extraFields, hx, ?_, ?_, ?_, ?_, parse_trim dec.wf hx, rfl⟩, ?_, ?_, ?_, rfl, ?_⟩
  · rw [d.filename, d.nameLen]
  · rw [d.extraLen]; omega
  · rw [d.comment, d.commentLen]
  · rw [d.method, tryFrom_toU16]
  · have hz := zip64_trim fun z hz => (dec.disk z hz).2
    refine ⟨?_, ?_, rfl, ?_, d.inter, d.exter, d.crc, ?_, ?_, ?_, ?_⟩
    · rw [cdEntryOf, d.filename]
      exact basic_filename _ _ _
    · rw [cdEntryOf, d.comment]
      exact basic_comment _ _ _
    · simp only [cdEntryOf, d.time, d.date]
    · simp only [cdEntryOf, hz, dec.sizes]
    · simp only [cdEntryOf, hz, dec.sizes]
    · simp only [cdEntryOf, d.flags]
    · simp only [cdEntryOf, hz, dec.offset]
  · simp only [cdEntryOf, d.filename, d.flags, nameRead, detectFilename]
    rw [path_trim, ← find_paths, dec.path, find_paths]
  · simp only [cdEntryOf, d.comment, d.flags, commentRead, detectComment]
    rw [comment_trim, ← find_comments, dec.comment, find_comments]
  · simp only [cdEntryOf, d.nameLen, d.extraLen]
    omega

end AsyncZip
