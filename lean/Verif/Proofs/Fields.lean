import Verif.Spec.Fields
import Verif.Props.Tiling
/-!
# What the writer does to extra fields
-/

namespace AsyncZip
open Spec

theorem custom_append (a b : List ExtraField) : customFields (a ++ b) = customFields a ++ customFields b := List.filterMap_append
theorem zips_append (a b : List ExtraField) : zip64Fields (a ++ b) = zip64Fields a ++ zip64Fields b := List.filterMap_append
theorem others_append (a b : List ExtraField) : otherThanZip64 (a ++ b) = otherThanZip64 a ++ otherThanZip64 b :=
  List.filter_append _ _

theorem custom_putPath (c : UInt32) (u : Bytes) (fs : List ExtraField) :
    customFields (putUnicodePath c u fs) = customFields fs := by
  unfold customFields
  induction fs with
  | nil => rfl
  | cons f fs ih =>
    cases f with
    | unicodePath i => cases i <;> rfl
    | unicodeComment i => exact ih
    | zip64 z => exact ih
    | unknown i => exact congrArg (i :: ·) ih

theorem custom_putComment (c : UInt32) (u : Bytes) (fs : List ExtraField) :
    customFields (putUnicodeComment c u fs) = customFields fs := by
  unfold customFields
  induction fs with
  | nil => rfl
  | cons f fs ih =>
    cases f with
    | unicodeComment i => cases i <;> rfl
    | unicodePath i => exact ih
    | zip64 z => exact ih
    | unknown i => exact congrArg (i :: ·) ih

theorem custom_withUnicode (e : ZipEntry) (fs : List ExtraField) : customFields (withUnicode e fs) = customFields fs := by
  unfold withUnicode withComment withPath
  repeat' split
  all_goals simp only [custom_putComment, custom_putPath]

theorem zips_putPath (c : UInt32) (u : Bytes) (fs : List ExtraField) :
    zip64Fields (putUnicodePath c u fs) = zip64Fields fs := by
  unfold zip64Fields
  induction fs with
  | nil => rfl
  | cons f fs ih =>
    cases f with
    | unicodePath i => cases i <;> rfl
    | unicodeComment i => exact ih
    | unknown z => exact ih
    | zip64 i => exact congrArg (i :: ·) ih

theorem zips_putComment (c : UInt32) (u : Bytes) (fs : List ExtraField) :
    zip64Fields (putUnicodeComment c u fs) = zip64Fields fs := by
  unfold zip64Fields
  induction fs with
  | nil => rfl
  | cons f fs ih =>
    cases f with
    | unicodeComment i => cases i <;> rfl
    | unicodePath i => exact ih
    | unknown z => exact ih
    | zip64 i => exact congrArg (i :: ·) ih

theorem zips_withUnicode (e : ZipEntry) (fs : List ExtraField) : zip64Fields (withUnicode e fs) = zip64Fields fs := by
  unfold withUnicode withComment withPath
  repeat' split
  all_goals simp only [zips_putComment, zips_putPath]

theorem zips_none {fs : List ExtraField} (h : NoZip64 fs) : zip64Fields fs = [] := by
  unfold zip64Fields
  rw [List.filterMap_eq_nil_iff]
  intro f hf
  cases f with
  | zip64 z => exact absurd rfl (h _ hf z)
  | _ => rfl

theorem others_all {fs : List ExtraField} (h : NoZip64 fs) : otherThanZip64 fs = fs := by
  unfold otherThanZip64
  rw [List.filter_eq_self]
  intro f hf
  cases f with
  | zip64 z => exact absurd rfl (h _ hf z)
  | _ => rfl

theorem custom_trim (fs : List ExtraField) :
    ∃ lost, customFields fs = customFields (trim fs) ++ lost ∧ (lost = [] ∨ ∃ f, lost = [f] ∧ f.content = []) := by
  rcases trim_cases fs with h | ⟨f, h, he⟩
  · exact ⟨[], by rw [h, List.append_nil], Or.inl rfl⟩
  · have h1 : customFields fs = customFields (trim fs) ++ customFields [f] := by rw [← custom_append, ← h]
    refine ⟨_, h1, ?_⟩
    cases f with
    | unknown u => exact Or.inr ⟨u, rfl, he⟩
    | _ => exact Or.inl rfl

theorem others_trim {fs : List ExtraField} :
    ∃ lost, otherThanZip64 fs = otherThanZip64 (trim fs) ++ lost ∧ (lost = [] ∨ ∃ f, lost = [f] ∧ EmptyContent f) := by
  rcases trim_cases fs with h | ⟨f, h, he⟩
  · exact ⟨[], by rw [h, List.append_nil], Or.inl rfl⟩
  · have h1 : otherThanZip64 fs = otherThanZip64 (trim fs) ++ otherThanZip64 [f] := by rw [← others_append, ← h]
    refine ⟨_, h1, ?_⟩
    cases f with
    | zip64 u => exact Or.inl rfl
    | _ => exact Or.inr ⟨_, rfl, he⟩

theorem zips_trim {fs : List ExtraField} (h : ∀ z, .zip64 z ∈ fs → ¬ EmptyContent (.zip64 z)) :
    zip64Fields (trim fs) = zip64Fields fs := by
  rcases trim_cases fs with ht | ⟨f, hf, he⟩
  · rw [ht]
  · have h1 : zip64Fields fs = zip64Fields (trim fs) ++ zip64Fields [f] := by rw [← zips_append, ← hf]
    rw [h1]
    cases f with
    | zip64 z => exact absurd he (h z (by rw [hf]; exact List.mem_append_right _ List.mem_cons_self))
    | _ => exact (List.append_nil _).symm

/-- What `Carries` says of the kinds of fields. -/
theorem Carries.kinds {force streamed : Bool} {e : ZipEntry} {us cs : UInt64} {off : Nat} {h : CentralDirectoryRecord}
    {fs : List ExtraField} (hc : Carries force streamed e us cs off h fs) (hno : NoZip64 e.extraFields) :
    customFields fs = customFields e.extraFields ∧ (bothUtf8 e = true → otherThanZip64 fs = e.extraFields) ∧
    (((streamed = true → force = true) ∧ us ≤ 0xFFFFFFFF ∧ cs ≤ 0xFFFFFFFF ∧ off ≤ 0xFFFFFFFF ∧ zip64Fields fs = []) ∨
     (((streamed = true ∧ force = false) ∨ (streamed = false ∧ (0xFFFFFFFF < us ∨ 0xFFFFFFFF < cs ∨ 0xFFFFFFFF < off))) ∧
       ∃ a b c, zip64Fields fs = [⟨ID_ZIP64, a, b, c, none⟩] ∧ (a ≠ none ∨ c ≠ none))) := by
  have hu : bothUtf8 e = true → ∀ fs, withUnicode e fs = fs := fun h fs => by rw [withUnicode, if_pos h]
  have zc : ∀ a b c, customFields [zip64Of a b c] = [] := fun _ _ _ => rfl
  have zo : ∀ a b c, otherThanZip64 [zip64Of a b c] = [] := fun _ _ _ => rfl
  have zz : ∀ a b c, zip64Fields [zip64Of a b c] = [⟨ID_ZIP64, a, b, c, none⟩] := fun _ _ _ => rfl
  cases hc with
  | plain hs hu' hc ho _ _ _ =>
    refine ⟨custom_withUnicode _ _, fun h => ?_, Or.inl ⟨hs, hu', hc, ho, ?_⟩⟩
    · rw [hu h, others_all hno]
    · rw [zips_withUnicode, zips_none hno]
  | big hs hb _ _ _ =>
    refine ⟨?_, fun h => ?_, Or.inr ⟨Or.inr ⟨hs, ?_⟩, some us, some cs, farField off, ?_, Or.inl (Option.some_ne_none _)⟩⟩
    · rw [custom_withUnicode, custom_append, zc, List.append_nil]
    · rw [hu h, others_append, zo, others_all hno, List.append_nil]
    · exact hb.imp id Or.inl
    · rw [zips_withUnicode, zips_append, zips_none hno, List.nil_append, zz]
  | far hs hu' hc ho _ _ _ =>
    refine ⟨?_, fun h => ?_, Or.inr ⟨Or.inr ⟨hs, Or.inr (Or.inr (by omega))⟩, none, none, some (UInt64.ofNat off), ?_, Or.inr (Option.some_ne_none _)⟩⟩
    · rw [custom_append, custom_withUnicode, zc, List.append_nil]
    · rw [hu h, others_append, zo, others_all hno, List.append_nil]
    · rw [zips_append, zips_withUnicode, zips_none hno, List.nil_append, zz]
  | stream hf hs _ _ _ =>
    rw [stream_fields _ _ _ _ hno]
    refine ⟨?_, fun h => ?_, Or.inr ⟨Or.inl ⟨hs, hf⟩, some us, some cs, some (UInt64.ofNat off), ?_, Or.inl (Option.some_ne_none _)⟩⟩
    · rw [custom_withUnicode, custom_append, zc, List.append_nil]
    · rw [hu h, others_append, zo, others_all hno, List.append_nil]
    · rw [zips_withUnicode, zips_append, zips_none hno, List.nil_append, zz]

theorem mem_zips {fs : List ExtraField} {z : Zip64Field} (h : .zip64 z ∈ fs) : z ∈ zip64Fields fs :=
  List.mem_filterMap.2 ⟨_, h, rfl⟩

theorem recorded_fits (force : Bool) (l : Listing) :
    ((l.recorded force).1 ≤ 0xFFFFFFFF ∧ (l.recorded force).2 ≤ 0xFFFFFFFF) ↔ (l.us ≤ 0xFFFFFFFF ∧ l.cs ≤ 0xFFFFFFFF) := by
  unfold Listing.recorded
  split
  · exact And.comm
  · exact Iff.rfl

theorem needs_of {force : Bool} {l : Listing} {off : Nat} (hc : (l.streamed = true ∧ force = false) ∨ (l.streamed = false ∧
    (0xFFFFFFFF < (l.recorded force).1 ∨ 0xFFFFFFFF < (l.recorded force).2 ∨ 0xFFFFFFFF < off))) : NeedsField force off l := by
  rcases hc with hc | ⟨hs, hc⟩
  · exact Or.inl hc
  · refine Or.inr ⟨hs, ?_⟩
    have : l.recorded force = (l.us, l.cs) := by rw [Listing.recorded, hs, Bool.and_false]; rfl
    rw [this] at hc
    exact hc

theorem trim_eq (fs : List ExtraField) : trim fs = withoutEmptyLast fs := by
  rcases List.eq_nil_or_concat fs with rfl | ⟨gs, f, rfl⟩
  · rfl
  · simp only [trim, withoutEmptyLast, List.concat_eq_append, List.getLast?_append, List.getLast?_singleton, Option.some_or,
      List.reverse_append, List.reverse_singleton, List.singleton_append, List.dropLast_concat, List.reverse_reverse]

theorem Shown.kept {b : Build} {force : Bool} {p : Listing × CdEntry} {off : Nat} {e : StoredZipEntry} {x : Bytes}
    (h : Shown b force p off e) (g : Good force off x p.1 p.2) (hown : ∀ f ∈ p.1.entry.extraFields, OwnField f) :
    FieldsKept force off p.1 e := by
  obtain ⟨k1, k2, k3⟩ := g.describes.carries.kinds (own_noZip64 hown)
  have hz : zip64Fields e.entry.extraFields = zip64Fields p.2.entry.extraFields := by
    rw [h.extra]
    refine zips_trim fun z hz he => ?_
    have hm := mem_zips hz
    rcases k3 with ⟨_, _, _, _, k⟩ | ⟨_, a, b, c, k, hne⟩
    · rw [k] at hm; cases hm
    · rw [k] at hm
      rw [List.mem_singleton.1 hm] at he
      rcases hne with hne | hne
      · exact hne he.1
      · exact hne he.2.2.1
  constructor
  · rw [← k1, h.extra]
    exact custom_trim _
  · intro h1 h2
    rw [h.extra, ← k2 (by rw [bothUtf8, h1, h2]; rfl)]
    exact others_trim
  · intro h1 h2 hn
    have hb : bothUtf8 p.1.entry = true := by rw [bothUtf8, h1, h2]; rfl
    have hp : p.2.entry.extraFields = p.1.entry.extraFields := by
      have hzn : zip64Fields p.2.entry.extraFields = [] := by
        rcases k3 with ⟨_, _, _, _, k⟩ | ⟨hc, _⟩
        · exact k
        · exact absurd (needs_of hc) hn
      rw [← k2 hb, others_all fun f hf z hz => ?_]
      rw [hz] at hf
      have := mem_zips hf
      rw [hzn] at this
      cases this
    rw [h.extra, hp, trim_eq]
  · intro hn
    rw [hz]
    rcases k3 with ⟨h1, h2, h3, h4, _⟩ | ⟨_, a, b, c, k, _⟩
    · refine absurd hn ?_
      rintro (⟨n1, n2⟩ | ⟨n1, n2⟩)
      · have := h1 n1; rw [n2] at this; cases this
      · obtain ⟨q1, q2⟩ := (recorded_fits force p.1).1 ⟨h2, h3⟩
        rcases n2 with n2 | n2 | n2
        · exact absurd q1 (UInt64.not_le.2 n2)
        · exact absurd q2 (UInt64.not_le.2 n2)
        · omega
    · exact ⟨_, k⟩
  · intro hn
    rw [hz]
    rcases k3 with ⟨_, _, _, _, k⟩ | ⟨hc, _⟩
    · exact k
    · exact absurd (needs_of hc) hn

theorem putZip64_count (us cs off : UInt64) {fs : List ExtraField} {id : UInt16} {a b : UInt64}
    (h : getZip64ExtraField fs = some ⟨id, some a, some b, none, none⟩) :
    extraCountBytes (putZip64Sizes us cs off fs) = extraCountBytes fs + 8 := by
  induction fs with
  | nil => cases h
  | cons f fs ih =>
    cases f with
    | zip64 z =>
      obtain rfl := Option.some.inj h
      simp only [putZip64Sizes, extraCountBytes, ExtraField.countBytes, Zip64Field.countBytes, Zip64Field.contentSize]
      omega
    | unicodeComment i => have := ih h; simp only [putZip64Sizes, extraCountBytes]; omega
    | unicodePath i => have := ih h; simp only [putZip64Sizes, extraCountBytes]; omega
    | unknown i => have := ih h; simp only [putZip64Sizes, extraCountBytes]; omega

/-- The extra field of the directory record against that of the local header. -/
theorem Good.gap {force : Bool} {off : Nat} {l : Listing} {c : CdEntry} {h : LocalFileHeader} {fs : List ExtraField}
    (d : Describes force off l c) (hl : LocalHeader force l c h fs) (hno : NoZip64 l.entry.extraFields) :
    extraCountBytes c.entry.extraFields = extraCountBytes fs + headerGap force off l := by
  have hc := d.carries
  unfold headerGap
  cases hs : l.streamed with
  | true =>
    obtain ⟨_, _, hfs⟩ := hl.stream hs
    rw [hs] at hc
    generalize hh : c.header = hd at hc
    generalize hx : c.entry.extraFields = fs' at hc
    cases hc with
    | plain hs' _ _ _ _ _ _ =>
      have hf := hs' rfl
      subst hf
      rw [hfs]
      rfl
    | big hs' => cases hs'
    | far hs' => cases hs'
    | stream hf _ _ _ _ =>
      subst hf
      have h1 : getZip64ExtraField (streamEntry false l.entry).extraFields =
          some ⟨ID_ZIP64, some l.entry.uncompressedSize, some l.entry.compressedSize, none, none⟩ := by
        have : (streamEntry false l.entry).extraFields = withUnicode l.entry
            (l.entry.extraFields ++ [zip64Of (some l.entry.uncompressedSize) (some l.entry.compressedSize) none]) := rfl
        rw [this, zip64_withUnicode, zip64_own _ _ _ _ hno]
      rw [putZip64_count _ _ _ h1, hfs]
      rfl
  | false =>
    obtain ⟨_, hw⟩ := hl.whole hs
    have hr : l.recorded force = (l.us, l.cs) := by rw [Listing.recorded, hs, Bool.and_false]; rfl
    rw [hs, hr] at hc
    generalize hh : c.header = hd at hc
    generalize hx : c.entry.extraFields = fs' at hc
    rw [hx] at hw
    simp only [Bool.false_eq_true, if_false]
    cases hc with
    | plain _ hu hc' ho _ _ _ =>
      rcases hw with ⟨_, _, _, _, hfs⟩ | ⟨_, hb, _⟩
      · rw [if_neg (fun h => by omega), hfs, Nat.add_zero]
      · rcases hb with hb | hb
        · exact absurd hu (UInt64.not_le.2 hb)
        · exact absurd hc' (UInt64.not_le.2 hb)
    | big _ hb _ _ _ =>
      have hn : ¬ (l.us ≤ 0xFFFFFFFF ∧ l.cs ≤ 0xFFFFFFFF) := fun h => by
        rcases hb with hb | hb
        · exact absurd h.1 (UInt64.not_le.2 hb)
        · exact absurd h.2 (UInt64.not_le.2 hb)
      rw [if_neg fun h => hn h.2]
      rcases hw with ⟨h1, h2, _⟩ | ⟨_, _, _, _, hfs, _⟩
      · exact absurd ⟨h1, h2⟩ hn
      · rw [hfs, Nat.add_zero]
    | far _ hu hc' ho _ _ _ =>
      rw [if_pos ⟨by omega, hu, hc'⟩]
      rcases hw with ⟨_, _, _, _, hfs⟩ | ⟨_, hb, _⟩
      · rw [extraCount_append, hfs]
        rfl
      · rcases hb with hb | hb
        · exact absurd hu (UInt64.not_le.2 hb)
        · exact absurd hc' (UInt64.not_le.2 hb)
    | stream _ hs' => cases hs'

end AsyncZip
