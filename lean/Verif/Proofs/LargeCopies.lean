import Verif.Spec.LargeCopies
import Verif.Proofs.Directory
/-!
# Directory records of entries that bring a ZIP64 field along
-/

namespace AsyncZip
open Spec Rd

theorem full_framed {f : ExtraField} (h : FullField f) : Framed f := ⟨_, _, h⟩

theorem firstZip64_eq (fs : List ExtraField) : getZip64ExtraField fs = firstZip64 fs := by
  induction fs with
  | nil => rfl
  | cons f fs ih =>
    cases f with
    | zip64 z => rfl
    | unicodeComment i => exact ih
    | unicodePath i => exact ih
    | unknown g => exact ih

theorem getZip64_append (fs gs : List ExtraField) :
    getZip64ExtraField (fs ++ gs) = (getZip64ExtraField fs).or (getZip64ExtraField gs) := by
  induction fs with
  | nil => rfl
  | cons f fs ih =>
    cases f with
    | zip64 z => rfl
    | unicodeComment i => exact ih
    | unicodePath i => exact ih
    | unknown g => exact ih

theorem zip64Of_full (a b : UInt64) (o : Option UInt64) : FullField (zip64Of (some a) (some b) o) := by
  simp [FullField, zip64Of, WellFormed, ID_ZIP64]

theorem putZip64_full (us cs off : UInt64) {fs : List ExtraField} (h : ∀ f ∈ fs, FullField f) :
    (∀ f ∈ putZip64Sizes us cs off fs, FullField f) ∧
    getZip64ExtraField (putZip64Sizes us cs off fs) = some ⟨ID_ZIP64, some us, some cs, some off, none⟩ := by
  induction fs with
  | nil =>
    refine ⟨fun f hf => ?_, rfl⟩
    rw [List.mem_singleton.1 hf]
    exact zip64Of_full us cs (some off)
  | cons f fs ih =>
    have hf := h f List.mem_cons_self
    have hfs : ∀ f ∈ fs, FullField f := fun g hg => h g (List.mem_cons_of_mem _ hg)
    obtain ⟨i1, i2⟩ := ih hfs
    have keep : ∀ g, g ∈ f :: putZip64Sizes us cs off fs → FullField g := fun g hg => by
      rcases List.mem_cons.1 hg with rfl | hg
      · exact hf
      · exact i1 g hg
    cases f with
    | zip64 z =>
      obtain ⟨id, u, c, o, d⟩ := z
      obtain ⟨w0, _, _, w3⟩ := hf
      simp only [] at w0 w3
      subst w0 w3
      refine ⟨fun g hg => ?_, rfl⟩
      rcases List.mem_cons.1 hg with rfl | hg
      · exact zip64Of_full us cs (some off)
      · exact hfs g hg
    | unicodeComment i => exact ⟨keep, i2⟩
    | unicodePath i => exact ⟨keep, i2⟩
    | unknown g => exact ⟨keep, i2⟩

theorem full_disk {fs : List ExtraField} (h : ∀ f ∈ fs, FullField f) (z : Zip64Field) (hz : .zip64 z ∈ fs) :
    z.diskStartNumber = none := (h _ hz).2.2.2

/-- The fields of a local header of such an entry. -/
theorem LocalHeader.full {force : Bool} {l : Listing} {c : CdEntry} {h : LocalFileHeader} {fs : List ExtraField}
    (hl : LocalHeader force l c h fs) (hfull : ∀ f ∈ l.entry.extraFields, FullField f) : ∀ f ∈ fs, FullField f := by
  have hn : extraCountBytes fs < 2 ^ 16 := by
    rw [← hl.extraLen]
    exact UInt16.toNat_lt _
  have plain : fs = withUnicode l.entry l.entry.extraFields → ∀ f ∈ fs, FullField f := by
    rintro rfl
    exact withUnicode_wf hfull hn
  have zip : ∀ (a b : UInt64) o, fs = withUnicode l.entry (l.entry.extraFields ++ [zip64Of (some a) (some b) o]) →
      ∀ f ∈ fs, FullField f := by
    rintro a b o rfl
    refine withUnicode_wf (fun f hf => ?_) hn
    rcases List.mem_append.1 hf with hf | hf
    · exact hfull f hf
    · rw [List.mem_singleton.1 hf]
      exact zip64Of_full _ _ _
  cases hs : l.streamed with
  | false =>
    obtain ⟨_, ⟨_, _, _, _, g5⟩ | ⟨o, _, _, _, _, g5⟩⟩ := hl.whole hs
    · exact plain g5
    · exact zip _ _ _ g5
  | true =>
    obtain ⟨_, _, g2⟩ := hl.stream hs
    cases force with
    | true => exact plain g2
    | false => exact zip _ _ _ g2

theorem LocalHeader.noDisk {force : Bool} {l : Listing} {c : CdEntry} {h : LocalFileHeader} {fs : List ExtraField}
    (hl : LocalHeader force l c h fs) (hfull : ∀ f ∈ l.entry.extraFields, FullField f) : diskFields fs = 0 :=
  diskFields_none (full_disk (hl.full hfull))

/-- The fields of the record have no disk number. -/
theorem Carries.noDisk {force streamed : Bool} {e : ZipEntry} {us cs : UInt64} {off : Nat} {h : CentralDirectoryRecord}
    {FS : List ExtraField} (hc : Carries force streamed e us cs off h FS) (hfull : ∀ f ∈ e.extraFields, FullField f)
    (z : Zip64Field) (hz : .zip64 z ∈ FS) : z.diskStartNumber = none := by
  have key : ∀ (fs : List ExtraField), .zip64 z ∈ withUnicode e fs → .zip64 z ∈ fs := fun fs hz => by
    rcases mem_withUnicode hz with hf | ⟨c, u, hf⟩ | ⟨c, u, hf⟩
    · exact hf
    · cases hf
    · cases hf
  have own : ∀ a b o, .zip64 z ∈ [zip64Of a b o] → z.diskStartNumber = none := fun a b o hz => by
    have hf := List.mem_singleton.1 hz
    simp only [zip64Of, ExtraField.zip64.injEq] at hf
    rw [hf]
  cases hc with
  | plain hs hu hc ho' h1 h2 h3 => exact full_disk hfull z (key _ hz)
  | big hs hb h1 h2 h3 =>
    rcases List.mem_append.1 (key _ hz) with hf | hf
    · exact full_disk hfull z hf
    · exact own _ _ _ hf
  | far hs hu hc ho' h1 h2 h3 =>
    rcases List.mem_append.1 hz with hf | hf
    · exact full_disk hfull z (key _ hf)
    · exact own _ _ _ hf
  | stream hf hs h1 h2 h3 =>
    have put : ∀ (fs : List ExtraField), (∀ z, .zip64 z ∈ fs → z.diskStartNumber = none) →
        .zip64 z ∈ putZip64Sizes us cs (UInt64.ofNat off) fs → z.diskStartNumber = none := by
      intro fs
      induction fs with
      | nil =>
        intro _ hz
        have hf := List.mem_singleton.1 hz
        simp only [ExtraField.zip64.injEq] at hf
        rw [hf]
      | cons f fs ih =>
        intro hall hz
        have ih := ih fun z hz => hall z (List.mem_cons_of_mem _ hz)
        have skip : .zip64 z ∈ f :: putZip64Sizes us cs (UInt64.ofNat off) fs → z.diskStartNumber = none := fun hz => by
          rcases List.mem_cons.1 hz with hf | hz
          · exact hall z (by rw [hf]; exact List.mem_cons_self)
          · exact ih hz
        cases f with
        | zip64 g =>
          rcases List.mem_cons.1 hz with hf | hz
          · simp only [ExtraField.zip64.injEq] at hf
            rw [hf]
            exact hall g List.mem_cons_self
          · exact hall z (List.mem_cons_of_mem _ hz)
        | unicodeComment i => exact skip hz
        | unicodePath i => exact skip hz
        | unknown g => exact skip hz
    refine put _ (fun z' hz' => ?_) hz
    have hm : ExtraField.zip64 z' ∈ e.extraFields ++ [zip64Of (some e.uncompressedSize) (some e.compressedSize) none] := by
      rcases mem_withUnicode hz' with hf | ⟨c, u, hf⟩ | ⟨c, u, hf⟩
      · exact hf
      · cases hf
      · cases hf
    rcases List.mem_append.1 hm with hf | hf
    · exact full_disk hfull z' hf
    · have hf := List.mem_singleton.1 hf
      simp only [zip64Of, ExtraField.zip64.injEq] at hf
      rw [hf]

/-- The place of a record, with its bytes. -/
theorem Good.place {force : Bool} {off : Nat} {x : Bytes} {l : Listing} {c : CdEntry} {extra rest data : Bytes} {j : Nat}
    (g : Good force off x l c) (hfull : ∀ f ∈ l.entry.extraFields, FullField f)
    (hx : extraAsBytes c.entry.extraFields = .ok extra)
    (hd : data.drop j = recordBytes c.header c.entry.filename.basic extra c.entry.comment.basic ++ rest) :
    OccursAt data sigCentral j ∧
    recordLength data j = (recordBytes c.header c.entry.filename.basic extra c.entry.comment.basic).length ∧
    Describes32 data j l ∧
    ((∀ f ∈ c.entry.extraFields, Framed f) →
      ((∀ f ∈ c.entry.extraFields, FullField f) → c.header.uncompressedSize = 0xFFFFFFFF → c.header.compressedSize = 0xFFFFFFFF →
        ∀ z, getZip64ExtraField c.entry.extraFields = some z →
        Declares data j (z.uncompressedSize.getD 0xFFFFFFFF).toNat (z.compressedSize.getD 0xFFFFFFFF).toNat
          (selectOffset c.header.lhOffset (some z)).toNat) ∧
      (c.header.uncompressedSize.toNat < 0xFFFFFFFF → c.header.compressedSize.toNat < 0xFFFFFFFF →
        c.header.lhOffset.toNat < 0xFFFFFFFF →
        Declares data j c.header.uncompressedSize.toNat c.header.compressedSize.toNat c.header.lhOffset.toNat) ∧
      (c.header.uncompressedSize.toNat < 0xFFFFFFFF → c.header.compressedSize.toNat < 0xFFFFFFFF →
        c.header.lhOffset = 0xFFFFFFFF → ∀ z a, getZip64ExtraField c.entry.extraFields = some z → z.uncompressedSize = some a →
        Declares data j c.header.uncompressedSize.toNat c.header.compressedSize.toNat a.toNat)) := by
  have d := g.describes
  have hxl : extra.length = c.header.extraFieldLength.toNat := by
    have := extraAsBytes_length hx
    rw [diskFields_none (d.carries.noDisk hfull)] at this
    rw [d.extraLen]
    omega
  have hnl : c.entry.filename.basic.length = c.header.fileNameLength.toNat := by rw [d.nameLen, d.filename]
  have hcl : c.entry.comment.basic.length = c.header.fileCommentLength.toNat := by rw [d.commentLen, d.comment]
  rw [recordBytes] at hd
  simp only [List.append_assoc] at hd
  have h1 := drop_append_of_drop hd (le32_length _)
  have h2 := drop_append_of_drop h1 (cdr_length _)
  have h3 := drop_append_of_drop h2 hnl
  have h4 := drop_append_of_drop h3 hxl
  obtain ⟨k1, k2, k3, k4, k5, k6, k7, k8, k9, k10, k11, k12, k13, k14⟩ :=
    cdr_fields (take_of_drop h1 (cdr_length c.header)).symm
  refine ⟨?_, ?_, ?_, ?_⟩
  · have := occurs_of_drop hd
    rwa [show le32 CDH_SIGNATURE = sigCentral by decide] at this
  · rw [recordLength, k8, k9, k10, recordBytes_length, hnl, hxl, hcl]
  · constructor
    · rw [k8, window, show j + 46 = j + 4 + 42 by omega, take_of_drop h2 hnl, d.filename]
    · rw [k8, k9, k10, window, show j + 46 = j + 4 + 42 by omega, take_of_drop h4 hcl, d.comment]
    · rw [k1, d.flags]
    · rw [k2, d.method]
      cases l.entry.compression <;> decide
    · rw [k3, d.time]
    · rw [k4, d.date]
    · rw [k5, d.crc]
    · rw [k11, d.disk]; rfl
    · rw [k12, d.inter]
    · rw [k13, d.exter]
  · intro hwf
    have hbl := blocks_of_framed hwf hx
    have plain : ∀ (v : Nat) (b : Bytes) (i : Nat), v < 0xFFFFFFFF → v = trueValue v b i := fun v b i hv => by
      unfold trueValue
      rw [if_neg fun h => by omega]
    refine ⟨fun hfl hu hc z hz => ⟨c.entry.extraFields.map blockOf, ?_, ?_⟩, fun hu hc ho => ⟨c.entry.extraFields.map blockOf, ?_, ?_⟩,
      fun hu hc ho z a hz ha => ⟨c.entry.extraFields.map blockOf, ?_, ?_⟩⟩
    · rw [k8, k9, window, show j + 46 = j + 4 + 42 by omega, take_of_drop h3 hxl]
      exact hbl
    · rw [zip64Content_framed hwf, k6, k7, k14, hz, hu, hc]
      refine trueValues (fun z' hz' => ?_) ?_ rfl
      · cases hz'
        exact hfl _ (getZip64_mem hz)
      · rfl
    · rw [k8, k9, window, show j + 46 = j + 4 + 42 by omega, take_of_drop h3 hxl]
      exact hbl
    · rw [k6, k7, k14]
      exact ⟨plain _ _ _ hu, plain _ _ _ hc, plain _ _ _ ho⟩
    · rw [k8, k9, window, show j + 46 = j + 4 + 42 by omega, take_of_drop h3 hxl]
      exact hbl
    · rw [zip64Content_framed hwf, k6, k7, k14, hz, ho]
      refine ⟨plain _ _ _ hu, plain _ _ _ hc, ?_⟩
      have room0 : ∀ v : Nat, v < 0xFFFFFFFF → room v = 0 := fun v hv => by
        unfold room
        rw [if_neg (by omega)]
      rw [room0 _ hu, room0 _ hc]
      have := trueValue_opt (v := 0xFFFFFFFF) (o := some a) (a := []) (i := 0)
        (b := optLe64 z.compressedSize ++ (optLe64 z.relativeHeaderOffset ++ optLe32 z.diskStartNumber)) (by simp) rfl
      rw [List.nil_append] at this
      simp only [zipContent, fieldContent, ha, List.append_assoc]
      exact this.symm

/-- The length of the record of an entry written in one go. -/
theorem Good.span {force : Bool} {off : Nat} {x : Bytes} {l : Listing} {c : CdEntry}
    (g : Good force off x l c) (hs : l.streamed = false) :
    30 + l.stored.length ≤ x.length ∧ x.length ≤ l.stored.length + 200000 := by
  obtain ⟨h, fs, extra, hh, hx, rfl⟩ := g.bytes
  have h1 := extraAsBytes_length hx
  have h2 := hh.extraLen
  have h3 := hh.nameLen
  have h4 := UInt16.toNat_lt h.extraFieldLength
  have h5 := UInt16.toNat_lt h.fileNameLength
  simp only [localBytes, tailBytes, hs, List.length_append, le32_length, lfh_length, Bool.false_eq_true, if_false, List.length_nil]
  omega

/-- What the record of a large entry written in one go carries. -/
theorem Carries.large {force : Bool} {l : Listing} {off : Nat} {h : CentralDirectoryRecord} {FS : List ExtraField}
    (hc : Carries force l.streamed l.entry l.us l.cs off h FS) (hfull : ∀ f ∈ l.entry.extraFields, FullField f)
    (hn : extraCountBytes FS < 2 ^ 16) (hl : LargeWhole l) :
    (∀ f ∈ FS, FullField f) ∧ h.uncompressedSize = 0xFFFFFFFF ∧ h.compressedSize = 0xFFFFFFFF ∧
    h.lhOffset = UInt32.ofNat (if off ≤ 0xFFFFFFFF then off else 0xFFFFFFFF) ∧
    getZip64ExtraField FS = some ((firstZip64 l.entry.extraFields).getD ⟨ID_ZIP64, some l.us, some l.cs, farField off, none⟩) := by
  obtain ⟨hs, hb⟩ := hl
  have small : l.us ≤ 0xFFFFFFFF → l.cs ≤ 0xFFFFFFFF → False := fun hu hc => by
    have hu : l.us.toNat ≤ 0xFFFFFFFF := hu
    have hc : l.cs.toNat ≤ 0xFFFFFFFF := hc
    omega
  cases hc with
  | plain _ hu hc _ _ _ _ => exact (small hu hc).elim
  | far _ hu hc _ _ _ _ => exact (small hu hc).elim
  | stream _ hs' _ _ _ => rw [hs] at hs'; cases hs'
  | big _ _ h1 h2 h3 =>
    refine ⟨withUnicode_wf (fun f hf => ?_) hn, h1, h2, h3, ?_⟩
    · rcases List.mem_append.1 hf with hf | hf
      · exact hfull f hf
      · rw [List.mem_singleton.1 hf]
        exact zip64Of_full _ _ _
    · rw [zip64_withUnicode, getZip64_append, firstZip64_eq]
      cases firstZip64 l.entry.extraFields <;> rfl

/-- What the record of a small entry written in one go carries. -/
theorem Carries.small {force : Bool} {l : Listing} {off : Nat} {h : CentralDirectoryRecord} {FS : List ExtraField}
    (hc : Carries force l.streamed l.entry l.us l.cs off h FS) (hfull : ∀ f ∈ l.entry.extraFields, FullField f)
    (hn : extraCountBytes FS < 2 ^ 16) (hs : l.streamed = false) (hu : l.us.toNat < 0xFFFFFFFF) (hcs : l.cs.toNat < 0xFFFFFFFF)
    (ho : off < 0xFFFFFFFF) :
    (∀ f ∈ FS, FullField f) ∧ h.uncompressedSize.toNat = l.us.toNat ∧ h.compressedSize.toNat = l.cs.toNat ∧
    h.lhOffset.toNat = off := by
  cases hc with
  | plain _ _ _ _ h1 h2 h3 =>
    refine ⟨withUnicode_wf hfull hn, ?_, ?_, ?_⟩
    · rw [h1, UInt64.toNat_toUInt32]; omega
    · rw [h2, UInt64.toNat_toUInt32]; omega
    · rw [h3, UInt32.toNat_ofNat']; omega
  | far _ _ _ ho' _ _ _ => omega
  | stream _ hs' _ _ _ => rw [hs] at hs'; cases hs'
  | big _ hb _ _ _ =>
    rcases hb with hb | hb
    · have : 0xFFFFFFFF < l.us.toNat := hb
      omega
    · have : 0xFFFFFFFF < l.cs.toNat := hb
      omega

/-- What the record of a small entry beyond 4 GiB, written in one go, carries. -/
theorem Carries.beyond {force : Bool} {l : Listing} {off : Nat} {h : CentralDirectoryRecord} {FS : List ExtraField}
    (hc : Carries force l.streamed l.entry l.us l.cs off h FS) (hfull : ∀ f ∈ l.entry.extraFields, FullField f)
    (hn : extraCountBytes FS < 2 ^ 16) (hs : l.streamed = false) (hu : l.us.toNat < 0xFFFFFFFF) (hcs : l.cs.toNat < 0xFFFFFFFF)
    (ho : 0xFFFFFFFF < off) {z : Zip64Field} (hz : firstZip64 l.entry.extraFields = some z) :
    (∀ f ∈ FS, Framed f) ∧ h.uncompressedSize.toNat = l.us.toNat ∧ h.compressedSize.toNat = l.cs.toNat ∧
    h.lhOffset = 0xFFFFFFFF ∧ getZip64ExtraField FS = some z := by
  cases hc with
  | plain _ _ _ ho' _ _ _ => omega
  | far _ _ _ _ h1 h2 h3 =>
    refine ⟨?_, ?_, ?_, h3, ?_⟩
    · intro f hf
      rcases List.mem_append.1 hf with hf | hf
      · refine full_framed (withUnicode_wf hfull ?_ f hf)
        rw [extraCount_append] at hn
        omega
      · rw [List.mem_singleton.1 hf]
        exact ⟨0, 0, by simp [zip64Of, WellFormed, ID_ZIP64]⟩
    · rw [h1, UInt64.toNat_toUInt32]; omega
    · rw [h2, UInt64.toNat_toUInt32]; omega
    · rw [getZip64_append, zip64_withUnicode, firstZip64_eq, hz]
      rfl
  | stream _ hs' _ _ _ => rw [hs] at hs'; cases hs'
  | big _ hb _ _ _ =>
    rcases hb with hb | hb
    · have : 0xFFFFFFFF < l.us.toNat := hb
      omega
    · have : 0xFFFFFFFF < l.cs.toNat := hb
      omega

/-- What the record of a streamed entry carries. -/
theorem Carries.streamed {e : ZipEntry} {us cs : UInt64} {off : Nat} {h : CentralDirectoryRecord} {FS : List ExtraField}
    (hc : Carries false true e us cs off h FS) (hfull : ∀ f ∈ e.extraFields, FullField f)
    (hn : extraCountBytes FS < 2 ^ 16) :
    (∀ f ∈ FS, FullField f) ∧ h.uncompressedSize = 0xFFFFFFFF ∧ h.compressedSize = 0xFFFFFFFF ∧ h.lhOffset = 0xFFFFFFFF ∧
    getZip64ExtraField FS = some ⟨ID_ZIP64, some us, some cs, some (UInt64.ofNat off), none⟩ := by
  cases hc with
  | plain hs _ _ _ _ _ _ => cases hs rfl
  | big hs _ _ _ _ => cases hs
  | far hs _ _ _ _ _ _ => cases hs
  | stream _ _ h1 h2 h3 =>
    have hall : ∀ f ∈ e.extraFields ++ [zip64Of (some e.uncompressedSize) (some e.compressedSize) none], FullField f := by
      intro f hf
      rcases List.mem_append.1 hf with hf | hf
      · exact hfull f hf
      · rw [List.mem_singleton.1 hf]
        exact zip64Of_full _ _ _
    have heq : putZip64Sizes us cs (UInt64.ofNat off) (streamEntry false e).extraFields = withUnicode e
        (putZip64Sizes us cs (UInt64.ofNat off) (e.extraFields ++ [zip64Of (some e.uncompressedSize) (some e.compressedSize) none])) :=
      putZip64_withUnicode us cs (UInt64.ofNat off) e
        (e.extraFields ++ [zip64Of (some e.uncompressedSize) (some e.compressedSize) none]) fun hz => by
        rw [getZip64_append] at hz
        cases hg : getZip64ExtraField e.extraFields <;> rw [hg] at hz <;> cases hz
    rw [heq] at hn ⊢
    obtain ⟨p1, p2⟩ := putZip64_full us cs (UInt64.ofNat off) hall
    exact ⟨withUnicode_wf p1 hn, h1, h2, h3, by rw [zip64_withUnicode, p2]⟩

/-- The fields in the record of an entry within 4 GiB. -/
theorem Carries.full {force streamed : Bool} {e : ZipEntry} {us cs : UInt64} {off : Nat} {h : CentralDirectoryRecord} {FS : List ExtraField}
    (hc : Carries force streamed e us cs off h FS) (hfull : ∀ f ∈ e.extraFields, FullField f)
    (hn : extraCountBytes FS < 2 ^ 16) (ho : off ≤ 0xFFFFFFFF) : ∀ f ∈ FS, FullField f := by
  cases hc with
  | plain _ _ _ _ _ _ _ => exact withUnicode_wf hfull hn
  | far _ _ _ ho' _ _ _ => omega
  | stream hf hs h1 h2 h3 =>
    subst hf hs
    exact (Carries.streamed (Carries.stream rfl rfl h1 h2 h3) hfull hn).1
  | big _ _ _ _ _ =>
    refine withUnicode_wf (fun f hf => ?_) hn
    rcases List.mem_append.1 hf with hf | hf
    · exact hfull f hf
    · rw [List.mem_singleton.1 hf]
      exact zip64Of_full _ _ _

/-- The place a record gives for an entry at `off`, with this ZIP64 field. -/
theorem offset_large {off : Nat} {z : Zip64Field} :
    (selectOffset (UInt32.ofNat (if off ≤ 0xFFFFFFFF then off else 0xFFFFFFFF)) (some z)).toNat =
      if off < 0xFFFFFFFF then off else (z.relativeHeaderOffset.getD 0xFFFFFFFF).toNat := by
  unfold selectOffset
  by_cases h : off < 0xFFFFFFFF
  · have hne : UInt32.ofNat off ≠ NON_ZIP64_MAX_SIZE := fun he => by
      have he := congrArg UInt32.toNat he
      rw [UInt32.toNat_ofNat'] at he
      have : NON_ZIP64_MAX_SIZE.toNat = 0xFFFFFFFF := rfl
      omega
    rw [if_pos h, if_pos (by omega)]
    simp only [if_neg hne, UInt32.toNat_toUInt64, UInt32.toNat_ofNat']
    omega
  · have heq : UInt32.ofNat (if off ≤ 0xFFFFFFFF then off else 0xFFFFFFFF) = NON_ZIP64_MAX_SIZE := by
      rw [show (if off ≤ 0xFFFFFFFF then off else 0xFFFFFFFF) = 0xFFFFFFFF by split <;> omega]
      rfl
    rw [if_neg h, heq]
    simp only [if_pos]
    rfl

/-- What the record at `j` says about the entry, if it is large and was written in one go, if it was streamed, and if it is
small and was written in one go, within 4 GiB and beyond. -/
def SaysLarge (force : Bool) (data : Bytes) (q : Listing × Nat) (j : Nat) : Prop :=
  (LargeWhole q.1 → ∀ z, firstZip64 q.1.entry.extraFields = some z →
    Declares data j (z.uncompressedSize.getD 0xFFFFFFFF).toNat (z.compressedSize.getD 0xFFFFFFFF).toNat
      (if q.2 < 0xFFFFFFFF then q.2 else (z.relativeHeaderOffset.getD 0xFFFFFFFF).toNat)) ∧
  (force = false → q.1.streamed = true → Declares data j q.1.us.toNat q.1.cs.toNat q.2) ∧
  (q.1.streamed = false → q.1.us.toNat < 0xFFFFFFFF → q.1.cs.toNat < 0xFFFFFFFF → q.2 < 0xFFFFFFFF →
    Declares data j q.1.us.toNat q.1.cs.toNat q.2) ∧
  (q.1.streamed = false → q.1.us.toNat < 0xFFFFFFFF → q.1.cs.toNat < 0xFFFFFFFF → 0xFFFFFFFF < q.2 →
    ∀ z a, firstZip64 q.1.entry.extraFields = some z → z.uncompressedSize = some a →
    Declares data j q.1.us.toNat q.1.cs.toNat a.toNat)

theorem Good.says {force : Bool} {off : Nat} {x : Bytes} {l : Listing} {c : CdEntry} {extra rest data : Bytes} {j : Nat}
    (g : Good force off x l c) (hfull : ∀ f ∈ l.entry.extraFields, FullField f)
    (hx : extraAsBytes c.entry.extraFields = .ok extra) (ho : off < 2 ^ 64)
    (hd : data.drop j = recordBytes c.header c.entry.filename.basic extra c.entry.comment.basic ++ rest) :
    SaysLarge force data (l, off) j := by
  obtain ⟨_, _, _, key⟩ := g.place hfull hx hd
  have hcar := g.describes.carries
  refine ⟨fun hl z hz => ?_, fun hf hs => ?_, fun hs hu hc hof => ?_,
    fun hs hu hc hof z a hz ha => ?_⟩
  · have hrec : l.recorded force = (l.us, l.cs) := by
      rw [Listing.recorded, hl.1, Bool.and_false]
      rfl
    rw [hrec] at hcar
    obtain ⟨h1, h2, h3, h4, h5⟩ := hcar.large hfull g.fits hl
    rw [hz, Option.getD_some] at h5
    have := (key fun f hf => full_framed (h1 f hf)).1 h1 h2 h3 z h5
    rw [h4, offset_large] at this
    exact this
  · have hrec : l.recorded force = (l.us, l.cs) := by
      rw [Listing.recorded, hf, Bool.false_and]
      rfl
    rw [hrec] at hcar
    obtain ⟨e, st, crc, us, stored⟩ := l
    simp only [] at hs
    subst hs hf
    obtain ⟨h1, h2, h3, h4, h5⟩ := hcar.streamed hfull g.fits
    have := (key fun f hf => full_framed (h1 f hf)).1 h1 h2 h3 _ h5
    rw [h4] at this
    have hoff : (selectOffset 0xFFFFFFFF (some (⟨ID_ZIP64, some us, some (Listing.cs ⟨e, true, crc, us, stored⟩), some (UInt64.ofNat off), none⟩ : Zip64Field))).toNat =
        off := by
      show (UInt64.ofNat off).toNat = off
      rw [UInt64.toNat_ofNat']
      omega
    rw [hoff] at this
    exact this
  · have hrec : l.recorded force = (l.us, l.cs) := by
      rw [Listing.recorded, hs, Bool.and_false]
      rfl
    rw [hrec] at hcar
    obtain ⟨h1, h2, h3, h4⟩ := hcar.small hfull g.fits hs hu hc hof
    have := (key fun f hf => full_framed (h1 f hf)).2.1 (by rw [h2]; exact hu) (by rw [h3]; exact hc) (by rw [h4]; exact hof)
    rw [h2, h3, h4] at this
    exact this
  · have hrec : l.recorded force = (l.us, l.cs) := by
      rw [Listing.recorded, hs, Bool.and_false]
      rfl
    rw [hrec] at hcar
    obtain ⟨h1, h2, h3, h4, h5⟩ := hcar.beyond hfull g.fits hs hu hc hof hz
    have := (key h1).2.2 (by rw [h2]; exact hu) (by rw [h3]; exact hc) h4 z a h5 ha
    rw [h2, h3] at this
    exact this

/-- The records of a directory on the bytes. -/
theorem Directory.saying {force : Bool} {data : Bytes} : ∀ {ps : List (Listing × CdEntry)} {cd : Bytes} {offs : List Nat} {rest : Bytes} {j : Nat},
    Directory (ps.map Prod.snd) cd → data.drop j = cd ++ rest →
    List.Forall₂ (fun (p : Listing × CdEntry) off => (∃ x, Good force off x p.1 p.2) ∧
      (∀ f ∈ p.1.entry.extraFields, FullField f) ∧ off < 2 ^ 64) ps offs →
    ∃ js, Positions data j js (j + cd.length) ∧
      List.Forall₂ (fun (q : Listing × Nat) i => Describes32 data i q.1 ∧ SaysLarge force data q i)
        ((ps.map Prod.fst).zip offs) js := by
  intro ps
  induction ps with
  | nil =>
    intro cd offs rest j hdir _ _
    cases hdir
    exact ⟨[], .nil j, .nil⟩
  | cons p ps ih =>
    intro cd offs rest j hdir hd hall
    cases hall with
    | cons h1 hall =>
      rename_i off offs
      obtain ⟨⟨x, g⟩, h2, h3⟩ := h1
      rw [List.map_cons] at hdir
      cases hdir with
      | cons hx hdir =>
        rename_i extra bs
        rw [List.append_assoc] at hd
        obtain ⟨k1, k2, k3, _⟩ := g.place h2 hx hd
        have k4 := g.says h2 hx h3 hd
        obtain ⟨js, i1, i2⟩ := ih hdir (drop_append_of_drop hd rfl) hall
        refine ⟨j :: js, .cons j js _ k1 ?_, ?_⟩
        · rw [k2, List.length_append, ← Nat.add_assoc]
          exact i1
        · rw [List.map_cons, List.zip_cons_cons]
          exact .cons ⟨k3, k4⟩ i2

end AsyncZip
