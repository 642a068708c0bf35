import Verif.Proofs.RoundTrip
import Verif.Spec.Directory
/-!
# The bytes of the directory and of the end records
-/

namespace AsyncZip
open Spec Rd

/-! ## Fields -/

theorem cdr_fields {data : Bytes} {pos : Nat} {h : CentralDirectoryRecord} (hb : h.asSlice = (data.drop (pos + 4)).take 42) :
    (fieldAt data (pos + 8) 2).testBit 3 = h.flags.dataDescriptor ∧ fieldAt data (pos + 10) 2 = h.compression.toNat ∧
    fieldAt data (pos + 12) 2 = h.modTime.toNat ∧ fieldAt data (pos + 14) 2 = h.modDate.toNat ∧
    fieldAt data (pos + 16) 4 = h.crc.toNat ∧ fieldAt data (pos + 20) 4 = h.compressedSize.toNat ∧
    fieldAt data (pos + 24) 4 = h.uncompressedSize.toNat ∧ fieldAt data (pos + 28) 2 = h.fileNameLength.toNat ∧
    fieldAt data (pos + 30) 2 = h.extraFieldLength.toNat ∧ fieldAt data (pos + 32) 2 = h.fileCommentLength.toNat ∧
    fieldAt data (pos + 34) 2 = h.diskStart.toNat ∧ fieldAt data (pos + 36) 2 = h.interAttr.toNat ∧
    fieldAt data (pos + 38) 4 = h.exterAttr.toNat ∧ fieldAt data (pos + 42) 4 = h.lhOffset.toNat := by
  have r16 := fun i hi => (read16 hb (cdr_length h) i hi).symm
  have r32 := fun i hi => (read32 hb (cdr_length h) i hi).symm
  have e := cdr_ofBytes_asSlice h
  refine ⟨?_, (r16 6 (by omega)).trans (congrArg (fun x => x.compression.toNat) e),
    (r16 8 (by omega)).trans (congrArg (fun x => x.modTime.toNat) e),
    (r16 10 (by omega)).trans (congrArg (fun x => x.modDate.toNat) e),
    (r32 12 (by omega)).trans (congrArg (fun x => x.crc.toNat) e),
    (r32 16 (by omega)).trans (congrArg (fun x => x.compressedSize.toNat) e),
    (r32 20 (by omega)).trans (congrArg (fun x => x.uncompressedSize.toNat) e),
    (r16 24 (by omega)).trans (congrArg (fun x => x.fileNameLength.toNat) e),
    (r16 26 (by omega)).trans (congrArg (fun x => x.extraFieldLength.toNat) e),
    (r16 28 (by omega)).trans (congrArg (fun x => x.fileCommentLength.toNat) e),
    (r16 30 (by omega)).trans (congrArg (fun x => x.diskStart.toNat) e),
    (r16 32 (by omega)).trans (congrArg (fun x => x.interAttr.toNat) e),
    (r32 34 (by omega)).trans (congrArg (fun x => x.exterAttr.toNat) e),
    (r32 38 (by omega)).trans (congrArg (fun x => x.lhOffset.toNat) e)⟩
  have h1 := r16 4 (by omega)
  have h2 : GeneralPurposeFlag.ofU16 (fromLe16 (slice h.asSlice 4 6)) = h.flags := congrArg (fun x => x.flags) e
  rw [flags_ofU16] at h2
  rw [← h2, show pos + 8 = pos + 4 + 4 by omega, h1]

/-! ## Extra fields -/

/-- A field as a block. -/
def blockOf (f : ExtraField) : Nat × Bytes := ((fieldId f).toNat, fieldContent f)

/-- The field can be told from the others, and its length is right. -/
def Framed (f : ExtraField) : Prop := ∃ us cs, WellFormed us cs f

theorem blocks_of_framed : ∀ {fs : List ExtraField} {xb : Bytes}, (∀ f ∈ fs, Framed f) →
    extraAsBytes fs = .ok xb → Blocks xb (fs.map blockOf) [] := by
  intro fs
  induction fs with
  | nil =>
    intro xb _ h
    cases h
    exact .nil []
  | cons f fs ih =>
    intro xb hwf h
    obtain ⟨b, h1, h⟩ := bind_ok h
    obtain ⟨bs, h2, h⟩ := bind_ok h
    cases h
    obtain ⟨us, cs, hf⟩ := hwf f List.mem_cons_self
    rw [asBytes_wf hf, Except.ok.injEq] at h1
    subst h1
    have hb := ih (fun g hg => hwf g (List.mem_cons_of_mem _ hg)) h2
    have hs := fieldSize_toNat hf
    have f0 : fieldAt (le16 (fieldId f) ++ (le16 (fieldSize f) ++ fieldContent f) ++ bs) 0 2 = (fieldId f).toNat := by
      rw [← fromLe16_slice _ 0 (by simp), List.append_assoc, slice_here (le16_length _), fromLe16_le16]
    have f1 : fieldAt (le16 (fieldId f) ++ (le16 (fieldSize f) ++ fieldContent f) ++ bs) 2 2 = (fieldContent f).length := by
      rw [← fromLe16_slice _ 2 (by simp; omega), List.append_assoc, slice_skip (le16_length _) (Nat.le_refl 2), Nat.sub_self,
        List.append_assoc, slice_here (le16_length _), fromLe16_le16, hs]
    have d4 : (le16 (fieldId f) ++ (le16 (fieldSize f) ++ fieldContent f) ++ bs).drop 4 = fieldContent f ++ bs := by
      rw [← List.append_assoc, List.append_assoc]
      exact List.drop_left' (by simp)
    have := Blocks.cons (le16 (fieldId f) ++ (le16 (fieldSize f) ++ fieldContent f) ++ bs) (fs.map blockOf) [] (by
        rw [f1]; simp only [List.length_append, le16_length]; omega) (by
        rw [f1, ← List.drop_drop, d4, List.drop_left' rfl]
        exact hb)
    rw [f0, f1, d4, List.take_left' rfl] at this
    exact this

theorem blocks_of_fields {us cs : UInt32} {fs : List ExtraField} {xb : Bytes} (hwf : ∀ f ∈ fs, WellFormed us cs f)
    (h : extraAsBytes fs = .ok xb) : Blocks xb (fs.map blockOf) [] :=
  blocks_of_framed (fun f hf => ⟨us, cs, hwf f hf⟩) h

/-- The content of the field, if there is one. -/
def zipContent : Option Zip64Field → Bytes
  | some z => fieldContent (.zip64 z)
  | none => []

theorem zip64Content_framed : ∀ {fs : List ExtraField}, (∀ f ∈ fs, Framed f) →
    zip64Content (fs.map blockOf) = zipContent (getZip64ExtraField fs) := by
  intro fs
  induction fs with
  | nil => exact fun _ => rfl
  | cons f fs ih =>
    intro hwf
    obtain ⟨us, cs, hf⟩ := hwf f List.mem_cons_self
    have ih := ih fun g hg => hwf g (List.mem_cons_of_mem _ hg)
    have skip : (fieldId f).toNat ≠ 1 → zip64Content ((f :: fs).map blockOf) = zip64Content (fs.map blockOf) := by
      intro hne
      unfold zip64Content
      rw [List.map_cons, List.find?_cons_of_neg (by simpa [blockOf] using hne)]
    cases f with
    | zip64 z =>
      have : z.headerId = 1 := hf.1
      unfold zip64Content
      rw [List.map_cons, List.find?_cons_of_pos (by simp [blockOf, fieldId, this])]
      rfl
    | unicodeComment i => exact (skip (show ID_UCOM.toNat ≠ 1 by decide)).trans ih
    | unicodePath i => exact (skip (show ID_UPATH.toNat ≠ 1 by decide)).trans ih
    | unknown g =>
      refine (skip fun h => ?_).trans ih
      have hg : g.headerId ≠ 1 := hf.1
      exact hg (UInt16.toNat_inj.1 h)

theorem zip64Content_fields {us cs : UInt32} {fs : List ExtraField} (hwf : ∀ f ∈ fs, WellFormed us cs f) :
    zip64Content (fs.map blockOf) = zipContent (getZip64ExtraField fs) :=
  zip64Content_framed fun f hf => ⟨us, cs, hwf f hf⟩

theorem optLe64_at {x : UInt64} {a b : Bytes} {i : Nat} (ha : a.length = i) : fieldAt (a ++ (le64 x ++ b)) i 8 = x.toNat := by
  rw [← fromLe64_slice _ i (by simp; omega), slice_skip ha (Nat.le_refl i), Nat.sub_self, Nat.add_sub_cancel_left,
    slice_here (le64_length _), fromLe64_le64]

theorem room_eq (x : UInt32) : room x.toNat = if x = 0xFFFFFFFF then 8 else 0 := by
  unfold room
  congr 1
  rw [← UInt32.toNat_inj]
  rfl

theorem max_iff (x : UInt32) : x.toNat = 0xFFFFFFFF ↔ x = 0xFFFFFFFF := by rw [← UInt32.toNat_inj]; rfl

theorem trueValue_nil (v i : Nat) : trueValue v [] i = v := by
  unfold trueValue
  rw [if_neg (by rw [List.length_nil]; omega)]

theorem trueValue_opt {v : UInt32} {o : Option UInt64} {a b : Bytes} {i : Nat} (h : o.isSome ↔ v = 0xFFFFFFFF) (hi : a.length = i) :
    trueValue v.toNat (a ++ (optLe64 o ++ b)) i = (o.getD v.toUInt64).toNat := by
  unfold trueValue
  cases o with
  | none =>
    rw [if_neg, Option.getD_none, UInt32.toNat_toUInt64]
    intro hv
    have := h.2 ((max_iff v).1 hv.1)
    cases this
  | some x =>
    rw [if_pos ⟨(max_iff v).2 (h.1 rfl), by simp only [List.length_append, optLe64, le64_length]; omega⟩]
    exact optLe64_at hi

theorem trueValue_last {v : UInt32} {o : Option UInt64} {a : Bytes} {i : Nat} (hi : a.length = i) :
    trueValue v.toNat (a ++ optLe64 o) i = (if v = 0xFFFFFFFF then o.getD v.toUInt64 else v.toUInt64).toNat := by
  unfold trueValue
  by_cases hv : v = 0xFFFFFFFF
  · rw [if_pos hv]
    cases o with
    | none =>
      rw [if_neg (by rw [optLe64, List.append_nil]; omega), Option.getD_none, UInt32.toNat_toUInt64]
    | some x =>
      rw [if_pos ⟨(max_iff v).2 hv, by simp only [List.length_append, optLe64, le64_length]; omega⟩]
      have := optLe64_at (x := x) (b := []) hi
      rw [List.append_nil] at this
      exact this
  · rw [if_neg fun h => hv ((max_iff v).1 h.1), if_neg hv, UInt32.toNat_toUInt64]

theorem optLe64_room {v : UInt32} {o : Option UInt64} (h : o.isSome ↔ v = 0xFFFFFFFF) : (optLe64 o).length = room v.toNat := by
  rw [optLe64_length, room_eq]
  cases o with
  | none => rw [if_neg (by simp), if_neg fun hv => (by have := h.2 hv; cases this)]
  | some x => rw [if_pos (h.1 rfl)]; rfl

/-- Values carried by a field that has exactly the saturated sizes. -/
theorem trueValues {U Cs O : UInt32} {us cs : UInt64} {off : Nat} {zo : Option Zip64Field}
    (hwf : ∀ z, zo = some z → WellFormed U Cs (.zip64 z)) (hs : getCombinedSizes U Cs zo = (us, cs))
    (ho : (selectOffset O zo).toNat = off) :
    us.toNat = trueValue U.toNat (zipContent zo) 0 ∧ cs.toNat = trueValue Cs.toNat (zipContent zo) (room U.toNat) ∧
      off = trueValue O.toNat (zipContent zo) (room U.toNat + room Cs.toNat) := by
  cases zo with
  | none =>
    simp only [getCombinedSizes, selectOffset, UInt32.toNat_toUInt64, Prod.mk.injEq] at hs ho
    rw [← hs.1, ← hs.2, ← ho]
    refine ⟨(UInt32.toNat_toUInt64 _).trans (trueValue_nil _ _).symm, (UInt32.toNat_toUInt64 _).trans (trueValue_nil _ _).symm,
      (trueValue_nil _ _).symm⟩
  | some z =>
    obtain ⟨_, w1, w2, w3⟩ := hwf z rfl
    obtain ⟨id, u, c, o, d⟩ := z
    simp only [] at w1 w2 w3
    subst w3
    simp only [getCombinedSizes, Prod.mk.injEq] at hs
    simp only [selectOffset, NON_ZIP64_MAX_SIZE] at ho
    simp only [zipContent, fieldContent, optLe32, List.append_nil]
    refine ⟨?_, ?_, ?_⟩
    · have := trueValue_opt (a := []) (b := optLe64 c ++ optLe64 o) w1 List.length_nil
      rw [List.nil_append, ← List.append_assoc] at this
      rw [this, ← hs.1]
    · have := trueValue_opt (a := optLe64 u) (b := optLe64 o) w2 (optLe64_room w1)
      rw [← List.append_assoc] at this
      rw [this, ← hs.2]
    · rw [trueValue_last (by rw [List.length_append, optLe64_room w1, optLe64_room w2]), ← ho]
      congr

theorem getZip64_mem {fs : List ExtraField} {z : Zip64Field} (h : getZip64ExtraField fs = some z) : .zip64 z ∈ fs := by
  induction fs with
  | nil => cases h
  | cons f fs ih =>
    cases f with
    | zip64 g =>
      rw [show getZip64ExtraField (.zip64 g :: fs) = some g from rfl] at h
      cases h
      exact List.mem_cons_self
    | unicodeComment i => exact List.mem_cons_of_mem _ (ih h)
    | unicodePath i => exact List.mem_cons_of_mem _ (ih h)
    | unknown g => exact List.mem_cons_of_mem _ (ih h)

/-! ## Records -/

theorem diskFields_none {fs : List ExtraField} (h : ∀ z, .zip64 z ∈ fs → z.diskStartNumber = none) : diskFields fs = 0 := by
  induction fs with
  | nil => rfl
  | cons f fs ih =>
    have ih := ih fun z hz => h z (List.mem_cons_of_mem _ hz)
    rw [diskFields_cons, ih, Nat.add_zero]
    cases f with
    | zip64 z => simp only [diskFields, h z List.mem_cons_self]; rfl
    | unicodeComment i => rfl
    | unicodePath i => rfl
    | unknown g => rfl

theorem occurs_of_drop {data pat rest : Bytes} {j : Nat} (h : data.drop j = pat ++ rest) : OccursAt data pat j := by
  unfold OccursAt
  rw [h, List.take_left' rfl]

theorem Carries.disk {force streamed : Bool} {e : ZipEntry} {us cs : UInt64} {off : Nat} {h : CentralDirectoryRecord}
    {FS : List ExtraField} (hc : Carries force streamed e us cs off h FS) (hno : NoZip64 e.extraFields) (z : Zip64Field)
    (hz : .zip64 z ∈ FS) : z.diskStartNumber = none := by
  have key : ∀ a b o, .zip64 z ∈ withUnicode e (e.extraFields ++ [zip64Of a b o]) → z.diskStartNumber = none := by
    intro a b o hz
    rcases mem_withUnicode hz with hf | ⟨c, u, hf⟩ | ⟨c, u, hf⟩
    · rcases List.mem_append.1 hf with hf | hf
      · exact absurd rfl (hno _ hf z)
      · have hf := List.mem_singleton.1 hf
        simp only [zip64Of, ExtraField.zip64.injEq] at hf
        rw [hf]
    · cases hf
    · cases hf
  cases hc with
  | plain hs hu hc ho' h1 h2 h3 => exact absurd rfl (noZip64_withUnicode hno _ hz z)
  | big hs hb h1 h2 h3 => exact key _ _ _ hz
  | far hs hu hc ho' h1 h2 h3 =>
    rcases List.mem_append.1 hz with hf | hf
    · exact absurd rfl (noZip64_withUnicode hno _ hf z)
    · have hf := List.mem_singleton.1 hf
      simp only [zip64Of, ExtraField.zip64.injEq] at hf
      rw [hf]
  | stream hf hs h1 h2 h3 =>
    rw [stream_fields _ _ _ _ hno] at hz
    exact key _ _ _ hz

/-- What the record of an entry with a clash says. -/
theorem Carries.clashes {force : Bool} {l : Listing} {off : Nat} {h : CentralDirectoryRecord} {FS : List ExtraField}
    (hc : Carries force l.streamed l.entry l.us l.cs off h FS) (hown : ∀ f ∈ l.entry.extraFields, OwnField f)
    (hn : extraCountBytes FS < 2 ^ 16) (ho : off < 2 ^ 64) (hcl : Clash off l) :
    (∀ f ∈ FS, WellFormed 0 0 f) ∧
    (clashSizes off l).1 = trueValue h.uncompressedSize.toNat (zipContent (getZip64ExtraField FS)) 0 ∧
    (clashSizes off l).2 =
      trueValue h.compressedSize.toNat (zipContent (getZip64ExtraField FS)) (room h.uncompressedSize.toNat) ∧
    0xFFFFFFFF = trueValue h.lhOffset.toNat (zipContent (getZip64ExtraField FS))
      (room h.uncompressedSize.toNat + room h.compressedSize.toNat) := by
  obtain ⟨hs, hoff, hu, hcs, hmax⟩ := hcl
  have hno := own_noZip64 hown
  cases hc with
  | plain _ _ _ ho' _ _ _ => omega
  | big _ hb _ _ _ => rcases hb with hb | hb <;> exact absurd hb (by simpa using ‹_›)
  | stream _ hs' _ _ _ => rw [hs] at hs'; cases hs'
  | far _ _ _ ho' h1 h2 h3 =>
    have hz : getZip64ExtraField (withUnicode l.entry l.entry.extraFields ++ [zip64Of none none (some (UInt64.ofNat off))]) =
        some ⟨ID_ZIP64, none, none, some (UInt64.ofNat off), none⟩ := zip64_own _ _ _ _ (noZip64_withUnicode hno)
    refine ⟨fun f hf => ?_, ?_⟩
    · rcases List.mem_append.1 hf with hf | hf
      · refine withUnicode_wf (fun f hf => OwnField.wf (hown f hf) _ _) ?_ f hf
        rw [extraCount_append] at hn
        omega
      · rw [List.mem_singleton.1 hf]
        simp [zip64Of, WellFormed, ID_ZIP64]
    · have hcont : zipContent (getZip64ExtraField (withUnicode l.entry l.entry.extraFields ++
          [zip64Of none none (some (UInt64.ofNat off))])) = le64 (UInt64.ofNat off) := by
        rw [hz]
        rfl
      have hlen : (le64 (UInt64.ofNat off)).length = 8 := le64_length _
      have hval : fieldAt (le64 (UInt64.ofNat off)) 0 8 = off := by
        have := optLe64_at (x := UInt64.ofNat off) (a := []) (b := []) (i := 0) rfl
        rw [List.append_nil, List.nil_append] at this
        rw [this, UInt64.toNat_ofNat']
        omega
      have hl : h.lhOffset.toNat = 0xFFFFFFFF := by rw [h3]; rfl
      have hun : h.uncompressedSize.toNat = l.us.toNat := by
        rw [h1, ← UInt32.toNat_toUInt64, toUInt32_toUInt64 hu]
      have hcn : h.compressedSize.toNat = l.cs.toNat := by
        rw [h2, ← UInt32.toNat_toUInt64, toUInt32_toUInt64 hcs]
      rw [hcont, hl, hun, hcn]
      have huz : l.us = 0xFFFFFFFF ↔ l.us.toNat = 0xFFFFFFFF := by rw [← UInt64.toNat_inj]; rfl
      have hcz : l.cs = 0xFFFFFFFF ↔ l.cs.toNat = 0xFFFFFFFF := by rw [← UInt64.toNat_inj]; rfl
      rw [huz, hcz] at hmax
      unfold clashSizes trueValue room
      rw [hlen]
      simp only [huz]
      by_cases h1 : l.us.toNat = 0xFFFFFFFF
      · simp [h1, hval]
      · have h2 : l.cs.toNat = 0xFFFFFFFF := hmax.resolve_left h1
        simp [h1, h2, hval]


/-- One record on the bytes. -/
theorem Good.record {force : Bool} {off : Nat} {x : Bytes} {l : Listing} {c : CdEntry} {extra rest data : Bytes} {j : Nat}
    (g : Good force off x l c) (hown : NoZip64 l.entry.extraFields)
    (hx : extraAsBytes c.entry.extraFields = .ok extra)
    (hd : data.drop j = recordBytes c.header c.entry.filename.basic extra c.entry.comment.basic ++ rest) :
    OccursAt data sigCentral j ∧
    recordLength data j = (recordBytes c.header c.entry.filename.basic extra c.entry.comment.basic).length ∧
    Describes32 data j l ∧
    ((∀ f ∈ l.entry.extraFields, OwnField f) → off < 2 ^ 64 →
      (¬ Clash off l → Declares data j (l.recorded force).1.toNat (l.recorded force).2.toNat off) ∧
      (Clash off l → Declares data j (clashSizes off l).1 (clashSizes off l).2 0xFFFFFFFF)) := by
  have d := g.describes
  have hxl : extra.length = c.header.extraFieldLength.toNat := by
    have := extraAsBytes_length hx
    rw [diskFields_none (d.carries.disk hown)] at this
    rw [d.extraLen]
    omega
  have hnl : c.entry.filename.basic.length = c.header.fileNameLength.toNat := by rw [d.nameLen, d.filename]
  have hcl : c.entry.comment.basic.length = c.header.fileCommentLength.toNat := by rw [d.commentLen, d.comment]
  rw [recordBytes] at hd
  simp only [List.append_assoc] at hd
  have h1 := drop_append_of_drop hd (le32_length _)
  have h2 := drop_append_of_drop h1 (cdr_length _)
  have h3 := drop_append_of_drop h2 hnl
  have h4 := drop_append_of_drop h3 hxl
  obtain ⟨k1, k2, k3, k4, k5, k6, k7, k8, k9, k10, k11, k12, k13, k14⟩ :=
    cdr_fields (take_of_drop h1 (cdr_length c.header)).symm
  refine ⟨?_, ?_, ?_, ?_⟩
  · have := occurs_of_drop hd
    rwa [show le32 CDH_SIGNATURE = sigCentral by decide] at this
  · rw [recordLength, k8, k9, k10, recordBytes_length, hnl, hxl, hcl]
  · constructor
    · rw [k8, window, show j + 46 = j + 4 + 42 by omega, take_of_drop h2 hnl, d.filename]
    · rw [k8, k9, k10, window, show j + 46 = j + 4 + 42 by omega, take_of_drop h4 hcl, d.comment]
    · rw [k1, d.flags]
    · rw [k2, d.method]
      cases l.entry.compression <;> decide
    · rw [k3, d.time]
    · rw [k4, d.date]
    · rw [k5, d.crc]
    · rw [k11, d.disk]; rfl
    · rw [k12, d.inter]
    · rw [k13, d.exter]
  · intro hown ho
    have hrec : l.streamed = false → l.recorded force = (l.us, l.cs) := by
      intro h
      rw [Listing.recorded, h, Bool.and_false]
      rfl
    refine ⟨fun hclash => ?_, fun hclash => ?_⟩
    on_goal 2 =>
      have hcar := d.carries
      rw [hrec hclash.1] at hcar
      obtain ⟨hb, hv1, hv2, hv3⟩ := hcar.clashes hown g.fits ho hclash
      refine ⟨c.entry.extraFields.map blockOf, ?_, ?_⟩
      · rw [k8, k9, window, show j + 46 = j + 4 + 42 by omega, take_of_drop h3 hxl]
        exact blocks_of_fields hb hx
      · rw [zip64Content_fields hb, k6, k7, k14]
        exact ⟨hv1, hv2, hv3⟩
    have dec := d.carries.decodes hown g.fits ho fun hs hoff hu hc => by
      rw [hrec hs] at hu hc ⊢
      exact ⟨fun h => hclash ⟨hs, hoff, hu, hc, Or.inl h⟩, fun h => hclash ⟨hs, hoff, hu, hc, Or.inr h⟩⟩
    refine ⟨c.entry.extraFields.map blockOf, ?_, ?_⟩
    · rw [k8, k9, window, show j + 46 = j + 4 + 42 by omega, take_of_drop h3 hxl]
      exact blocks_of_fields dec.wf hx
    · rw [zip64Content_fields dec.wf, k6, k7, k14]
      exact trueValues (fun z hz => dec.wf _ (getZip64_mem hz)) dec.sizes dec.offset

/-- The records of a directory on the bytes. -/
theorem Directory.positions {force : Bool} {data : Bytes} : ∀ {ps : List (Listing × CdEntry)} {cd : Bytes} {offs : List Nat} {rest : Bytes} {j : Nat},
    Directory (ps.map Prod.snd) cd → data.drop j = cd ++ rest →
    List.Forall₂ (fun (p : Listing × CdEntry) off => (∃ x, Good force off x p.1 p.2) ∧ NoZip64 p.1.entry.extraFields ∧
      off < 2 ^ 64) ps offs →
    ∃ js, Positions data j js (j + cd.length) ∧
      List.Forall₂ (fun (q : Listing × Nat) i => Describes32 data i q.1 ∧
        ((∀ f ∈ q.1.entry.extraFields, OwnField f) →
          (¬ Clash q.2 q.1 → Declares data i (q.1.recorded force).1.toNat (q.1.recorded force).2.toNat q.2) ∧
          (Clash q.2 q.1 → Declares data i (clashSizes q.2 q.1).1 (clashSizes q.2 q.1).2 0xFFFFFFFF))) ((ps.map Prod.fst).zip offs) js := by
  intro ps
  induction ps with
  | nil =>
    intro cd offs rest j hdir _ _
    cases hdir
    exact ⟨[], .nil j, .nil⟩
  | cons p ps ih =>
    intro cd offs rest j hdir hd hall
    cases hall with
    | cons h1 hall =>
      rename_i off offs
      obtain ⟨⟨x, g⟩, h2, h3⟩ := h1
      rw [List.map_cons] at hdir
      cases hdir with
      | cons hx hdir =>
        rename_i extra bs
        rw [List.append_assoc] at hd
        obtain ⟨k1, k2, k3, k4⟩ := g.record h2 hx hd
        obtain ⟨js, i1, i2⟩ := ih hdir (drop_append_of_drop hd rfl) hall
        refine ⟨j :: js, .cons j js _ k1 ?_, ?_⟩
        · rw [k2, List.length_append, ← Nat.add_assoc]
          exact i1
        · rw [List.map_cons, List.zip_cons_cons]
          exact .cons ⟨k3, fun h => k4 h h3⟩ i2

/-! ## End records -/

theorem eocdr_fields {data : Bytes} {pos : Nat} {h : EndOfCentralDirectoryHeader}
    (hb : h.asSlice = (data.drop (pos + 4)).take 18) :
    fieldAt data (pos + 4) 2 = h.diskNum.toNat ∧ fieldAt data (pos + 6) 2 = h.startCentDirDisk.toNat ∧
    fieldAt data (pos + 8) 2 = h.numOfEntriesDisk.toNat ∧ fieldAt data (pos + 10) 2 = h.numOfEntries.toNat ∧
    fieldAt data (pos + 12) 4 = h.sizeCentDir.toNat ∧ fieldAt data (pos + 16) 4 = h.centDirOffset.toNat ∧
    fieldAt data (pos + 20) 2 = h.fileCommLength.toNat := by
  have r16 := fun i hi => (read16 hb (eocdr_length h) i hi).symm
  have r32 := fun i hi => (read32 hb (eocdr_length h) i hi).symm
  have e := eocdr_ofBytes_asSlice h
  exact ⟨(r16 0 (by omega)).trans (congrArg (fun x => x.diskNum.toNat) e),
    (r16 2 (by omega)).trans (congrArg (fun x => x.startCentDirDisk.toNat) e),
    (r16 4 (by omega)).trans (congrArg (fun x => x.numOfEntriesDisk.toNat) e),
    (r16 6 (by omega)).trans (congrArg (fun x => x.numOfEntries.toNat) e),
    (r32 8 (by omega)).trans (congrArg (fun x => x.sizeCentDir.toNat) e),
    (r32 12 (by omega)).trans (congrArg (fun x => x.centDirOffset.toNat) e),
    (r16 16 (by omega)).trans (congrArg (fun x => x.fileCommLength.toNat) e)⟩

theorem z64eocdr_fields {data : Bytes} {pos : Nat} {h : Zip64EndOfCentralDirectoryRecord}
    (hb : h.asBytes = (data.drop (pos + 4)).take 52) :
    fieldAt data (pos + 4) 8 = h.sizeOfRecord.toNat ∧ fieldAt data (pos + 16) 4 = h.diskNumber.toNat ∧
    fieldAt data (pos + 20) 4 = h.diskNumberStartOfCd.toNat ∧ fieldAt data (pos + 24) 8 = h.numEntriesOnDisk.toNat ∧
    fieldAt data (pos + 32) 8 = h.numEntries.toNat ∧ fieldAt data (pos + 40) 8 = h.directorySize.toNat ∧
    fieldAt data (pos + 48) 8 = h.offsetOfStart.toNat := by
  have r32 := fun i hi => (read32 hb (z64eocdr_length h) i hi).symm
  have r64 := fun i hi => (read64 hb (z64eocdr_length h) i hi).symm
  have e := z64eocdr_ofBytes_asBytes h
  exact ⟨(r64 0 (by omega)).trans (congrArg (fun x => x.sizeOfRecord.toNat) e),
    (r32 12 (by omega)).trans (congrArg (fun x => x.diskNumber.toNat) e),
    (r32 16 (by omega)).trans (congrArg (fun x => x.diskNumberStartOfCd.toNat) e),
    (r64 20 (by omega)).trans (congrArg (fun x => x.numEntriesOnDisk.toNat) e),
    (r64 28 (by omega)).trans (congrArg (fun x => x.numEntries.toNat) e),
    (r64 36 (by omega)).trans (congrArg (fun x => x.directorySize.toNat) e),
    (r64 44 (by omega)).trans (congrArg (fun x => x.offsetOfStart.toNat) e)⟩

theorem z64eocdl_fields {data : Bytes} {pos : Nat} {h : Zip64EndOfCentralDirectoryLocator}
    (hb : h.asBytes = (data.drop (pos + 4)).take 16) :
    fieldAt data (pos + 4) 4 = h.numberOfDisk.toNat ∧ fieldAt data (pos + 8) 8 = h.relativeOffset.toNat ∧
    fieldAt data (pos + 16) 4 = h.totalNumberOfDisks.toNat := by
  have r32 := fun i hi => (read32 hb (z64eocdl_length h) i hi).symm
  have r64 := fun i hi => (read64 hb (z64eocdl_length h) i hi).symm
  have e := z64eocdl_ofBytes_asBytes h
  exact ⟨(r32 0 (by omega)).trans (congrArg (fun x => x.numberOfDisk.toNat) e),
    (r64 4 (by omega)).trans (congrArg (fun x => x.relativeOffset.toNat) e),
    (r32 12 (by omega)).trans (congrArg (fun x => x.totalNumberOfDisks.toNat) e)⟩

theorem clamp16_min (n : Nat) : (clamp16 n).toNat = min n 0xFFFF := by
  unfold clamp16
  split
  · rw [Nat.min_eq_right (by omega)]; rfl
  · rw [Nat.min_eq_left (by omega), UInt16.toNat_ofNat']; omega

theorem clamp32_min (n : Nat) : (clamp32 n).toNat = min n 0xFFFFFFFF := by
  unfold clamp32
  split
  · rw [Nat.min_eq_right (by omega)]; rfl
  · rw [Nat.min_eq_left (by omega), UInt32.toNat_ofNat']; omega

theorem end_at (out cd : Bytes) (z : Bool) (n : Nat) (comment : Bytes) (hc : comment.length ≤ 65535) :
    EndAt (archiveBytes out cd z n comment) (endAt out cd z) n cd.length out.length comment := by
  have hd := archive_drop_end out cd z n comment
  generalize archiveBytes out cd z n comment = data at hd
  generalize endAt out cd z = j at hd
  have h1 := drop_append_of_drop hd (le32_length _)
  have h2 := drop_append_of_drop h1 (eocdr_length _)
  obtain ⟨k1, k2, k3, k4, k5, k6, k7⟩ := eocdr_fields (take_of_drop h1 (eocdr_length _)).symm
  refine ⟨?_, ⟨k1, k2⟩, ⟨k3.trans (clamp16_min n), k4.trans (clamp16_min n)⟩, k5.trans (clamp32_min _),
    k6.trans (clamp32_min _), k7.trans ?_, h2⟩
  · have := occurs_of_drop hd
    rwa [show le32 EOCDR_SIGNATURE = sigEnd by decide] at this
  · rw [eocdrOf, UInt16.toNat_ofNat']
    omega

theorem zip64_at (out cd : Bytes) (n : Nat) (comment : Bytes) (hn : n < 2 ^ 64) (hl : out.length + cd.length < 2 ^ 64) :
    Zip64EndAt (archiveBytes out cd true n comment) (out.length + cd.length) n cd.length out.length := by
  have hd : (archiveBytes out cd true n comment).drop (out.length + cd.length) = endBytes true n cd.length out.length comment := by
    rw [← List.drop_drop, archive_drop_cd, List.drop_left' rfl]
  generalize archiveBytes out cd true n comment = data at hd
  rw [endBytes, if_pos rfl, zip64EndBytes] at hd
  simp only [List.append_assoc] at hd
  have h1 := drop_append_of_drop hd (le32_length _)
  have h2 := drop_append_of_drop h1 (z64eocdr_length _)
  have h3 := drop_append_of_drop h2 (le32_length _)
  obtain ⟨k1, k2, k3, k4, k5, k6, k7⟩ := z64eocdr_fields (take_of_drop h1 (z64eocdr_length _)).symm
  rw [show out.length + cd.length + 4 + 52 = out.length + cd.length + 56 by omega] at h2 h3
  obtain ⟨m1, m2, m3⟩ := z64eocdl_fields (take_of_drop h3 (z64eocdl_length _)).symm
  have mod : ∀ x, x < 2 ^ 64 → (UInt64.ofNat x).toNat = x := fun x hx => by
    rw [UInt64.toNat_ofNat']; omega
  refine ⟨?_, k1, ⟨k2, k3⟩, ⟨k4.trans (mod n hn), k5.trans (mod n hn)⟩, k6.trans (mod _ (by omega)), k7.trans (mod _ (by omega)),
    ?_, m2.trans (mod _ hl), ⟨m1, m3⟩⟩
  · have := occurs_of_drop hd
    rwa [show le32 ZIP64_EOCDR_SIGNATURE = sigZip64End by decide] at this
  · have := occurs_of_drop h2
    rwa [show le32 ZIP64_EOCDL_SIGNATURE = sigLocator by decide] at this

end AsyncZip
