import Verif.Model.ExtraField
import Verif.Spec.Extra
import Verif.Proofs.Layout
import Mathlib.Data.List.Forall2
/-! Lemmas about extra fields. -/

namespace AsyncZip
open Spec

theorem bind_ok {α β : Type} {x : Res α} {f : α → Res β} {b : β} (h : (x >>= f) = .ok b) :
    ∃ a, x = .ok a ∧ f a = .ok b := by
  cases x with
  | ok a => exact ⟨a, rfl, h⟩
  | error e => cases h

theorem bind_error {α β : Type} {x : Res α} {f : α → Res β} {e : Fail} (h : (x >>= f) = .error e) :
    x = .error e ∨ ∃ a, x = .ok a ∧ f a = .error e := by
  cases x with
  | ok a => exact .inr ⟨a, rfl, h⟩
  | error e' => left; cases h; rfl

@[simp] theorem res_ok_bind {α β : Type} (a : α) (f : α → Res β) : ((.ok a : Res α) >>= f) = f a := rfl
@[simp] theorem res_error_bind {α β : Type} (e : Fail) (f : α → Res β) :
    ((.error e : Res α) >>= f) = .error e := rfl
@[simp] theorem res_pure {α : Type} (a : α) : (pure a : Res α) = .ok a := rfl

theorem fromLe16_slice (b : Bytes) (i : Nat) (h : i + 2 ≤ b.length) :
    (fromLe16 (slice b i (i + 2))).toNat = fieldAt b i 2 := by
  rw [fieldAt_eq _ _ _ h]
  have := leNat_lt (slice b i (i + 2))
  rw [slice_length _ _ _ h, show i + 2 - i = 2 by omega] at this
  simp only [fromLe16, UInt16.toNat_ofNat']
  exact Nat.mod_eq_of_lt (by omega)

theorem fromLe32_slice (b : Bytes) (i : Nat) (h : i + 4 ≤ b.length) :
    (fromLe32 (slice b i (i + 4))).toNat = fieldAt b i 4 := by
  rw [fieldAt_eq _ _ _ h]
  have := leNat_lt (slice b i (i + 4))
  rw [slice_length _ _ _ h, show i + 4 - i = 4 by omega] at this
  simp only [fromLe32, UInt32.toNat_ofNat']
  exact Nat.mod_eq_of_lt (by omega)

theorem fieldAt_lt (b : Bytes) (i w : Nat) (h : i + w ≤ b.length) : fieldAt b i w < 256 ^ w := by
  rw [fieldAt_eq _ _ _ h]
  have := leNat_lt (slice b i (i + w))
  rwa [slice_length _ _ _ h, show i + w - i = w by omega] at this

/-- One round of the parser, on a block in range. -/
theorem parseExtraLoop_step (b : Build) (us cs : UInt32) (id sz : UInt16) (content rest : Bytes)
    (hsz : content.length = sz.toNat) (hne : 0 < content.length + rest.length) :
    parseExtraLoop b us cs (le16 id ++ (le16 sz ++ (content ++ rest))) = (do
      let f ← extraFieldFromBytes id sz content us cs
      let fs ← parseExtraLoop b us cs rest
      pure (f :: fs)) := by
  conv => lhs; unfold parseExtraLoop
  have h1 : slice (le16 id ++ (le16 sz ++ (content ++ rest))) 0 2 = le16 id := by slices
  have h2 : slice (le16 id ++ (le16 sz ++ (content ++ rest))) 2 4 = le16 sz := by slices
  have h3 : slice (le16 id ++ (le16 sz ++ (content ++ rest))) 4 (4 + sz.toNat) = content := by
    rw [slice_skip (le16_length _) (by omega), slice_skip (le16_length _) (by omega)]
    have : 4 + sz.toNat - 2 - 2 = content.length := by omega
    rw [this]
    simp [slice]
  have h4 : (le16 id ++ (le16 sz ++ (content ++ rest))).drop (4 + sz.toNat) = rest := by
    rw [show le16 id ++ (le16 sz ++ (content ++ rest)) = (le16 id ++ le16 sz ++ content) ++ rest by simp]
    rw [List.drop_left']
    simp; omega
  have hl : (le16 id ++ (le16 sz ++ (content ++ rest))).length = 4 + content.length + rest.length := by
    simp; omega
  rw [dif_pos (by omega), h1, h2, fromLe16_le16, fromLe16_le16]
  simp only []
  rw [if_neg (by omega), h3, h4]

theorem parseExtraLoop_short (b : Build) (us cs : UInt32) (rest : Bytes) (h : rest.length ≤ 4) :
    parseExtraLoop b us cs rest = .ok [] := by
  unfold parseExtraLoop
  rw [dif_neg (by omega)]

theorem optLe64_length (o : Option UInt64) : (optLe64 o).length = if o.isSome then 8 else 0 := by
  cases o <;> simp [optLe64]
theorem optLe32_length (o : Option UInt32) : (optLe32 o).length = if o.isSome then 4 else 0 := by
  cases o <;> simp [optLe32]

/-- The content bytes of a field. -/
def fieldContent : ExtraField → Bytes
  | .zip64 f => optLe64 f.uncompressedSize ++ optLe64 f.compressedSize ++ optLe64 f.relativeHeaderOffset
      ++ optLe32 f.diskStartNumber
  | .unicodeComment (.v1 crc s) => [1] ++ le32 crc ++ s
  | .unicodeComment (.unknown v d) => v :: d
  | .unicodePath (.v1 crc s) => [1] ++ le32 crc ++ s
  | .unicodePath (.unknown v d) => v :: d
  | .unknown f => f.content

/-- The id of a field. -/
def fieldId : ExtraField → UInt16
  | .zip64 f => f.headerId
  | .unicodeComment _ => ID_UCOM
  | .unicodePath _ => ID_UPATH
  | .unknown f => f.headerId

/-- The size a well-formed field declares. -/
def fieldSize (f : ExtraField) : UInt16 := UInt16.ofNat (fieldContent f).length

theorem zip64_contentSize (f : Zip64Field) (h : f.diskStartNumber = none) :
    f.contentSize = (fieldContent (.zip64 f)).length := by
  obtain ⟨i, u, c, o, d⟩ := f
  simp only at h
  subst h
  cases u <;> cases c <;> cases o <;> simp [Zip64Field.contentSize, fieldContent, optLe64, optLe32]

theorem zip64_contentSize_le (f : Zip64Field) : f.contentSize ≤ 32 := by
  obtain ⟨i, u, c, o, d⟩ := f
  cases u <;> cases c <;> cases o <;> cases d <;> simp [Zip64Field.contentSize]

theorem content_le {us cs : UInt32} {f : ExtraField} (h : WellFormed us cs f) :
    (fieldContent f).length < 2 ^ 16 := by
  cases f with
  | zip64 f =>
    have := zip64_contentSize f h.2.2.2
    have := zip64_contentSize_le f
    omega
  | unicodeComment f => cases f <;> simp_all [WellFormed, fieldContent] <;> omega
  | unicodePath f => cases f <;> simp_all [WellFormed, fieldContent] <;> omega
  | unknown f =>
    have := f.dataSize.toNat_lt
    simp_all [WellFormed, fieldContent]

/-- A well-formed field serialises to id, size, content. -/
theorem asBytes_wf {us cs : UInt32} {f : ExtraField} (h : WellFormed us cs f) :
    f.asBytes = .ok (le16 (fieldId f) ++ (le16 (fieldSize f) ++ fieldContent f)) := by
  cases f with
  | zip64 f =>
    simp only [ExtraField.asBytes, Zip64Field.asBytes, fieldId, fieldSize, zip64_contentSize f h.2.2.2, fieldContent,
      List.append_assoc]
  | unicodeComment f =>
    cases f with
    | v1 crc s =>
      simp only [WellFormed] at h
      have h5 : 5 + s.length = ([1] ++ le32 crc ++ s).length := by simp; omega
      simp only [ExtraField.asBytes, InfoZipField.asBytes, fieldId, fieldSize, fieldContent, h5, List.append_assoc]
      rw [if_pos (by simp; omega)]
    | unknown v d =>
      simp only [WellFormed] at h
      have h5 : 1 + d.length = (v :: d).length := by simp; omega
      simp only [ExtraField.asBytes, InfoZipField.asBytes, fieldId, fieldSize, fieldContent, h5, List.append_assoc]
      rw [if_pos (by simp; omega)]
      simp
  | unicodePath f =>
    cases f with
    | v1 crc s =>
      simp only [WellFormed] at h
      have h5 : 5 + s.length = ([1] ++ le32 crc ++ s).length := by simp; omega
      simp only [ExtraField.asBytes, InfoZipField.asBytes, fieldId, fieldSize, fieldContent, h5, List.append_assoc]
      rw [if_pos (by simp; omega)]
    | unknown v d =>
      simp only [WellFormed] at h
      have h5 : 1 + d.length = (v :: d).length := by simp; omega
      simp only [ExtraField.asBytes, InfoZipField.asBytes, fieldId, fieldSize, fieldContent, h5, List.append_assoc]
      rw [if_pos (by simp; omega)]
      simp
  | unknown f =>
    simp only [ExtraField.asBytes, UnknownField.asBytes, fieldId, fieldSize, fieldContent, ← h.2.2.2, List.append_assoc]
    simp

theorem fieldSize_toNat {us cs : UInt32} {f : ExtraField} (h : WellFormed us cs f) :
    (fieldContent f).length = (fieldSize f).toNat := by
  have := content_le h
  simp only [fieldSize, UInt16.toNat_ofNat']
  exact (Nat.mod_eq_of_lt this).symm

theorem takeOpt64_some (x : UInt64) (pre post : Bytes) (n : Nat) (hn : pre.length = n) :
    takeOpt64 true (pre ++ (le64 x ++ post)) n = (some x, n + 8) := by
  subst hn
  unfold takeOpt64
  rw [if_pos (by simp)]
  have : slice (pre ++ (le64 x ++ post)) pre.length (pre.length + 8) = le64 x := by
    rw [slice_skip rfl (by omega), Nat.sub_self, Nat.add_sub_cancel_left]
    exact slice_here (le64_length x)
  rw [this, fromLe64_le64]

theorem takeOpt64_false (data : Bytes) (n : Nat) : takeOpt64 false data n = (none, n) := by simp [takeOpt64]

theorem takeOpt64_short (w : Bool) (data : Bytes) (n : Nat) (h : data.length < n + 8) :
    takeOpt64 w data n = (none, n) := by
  unfold takeOpt64
  rw [if_neg]
  simp; intro _; omega

/-- Optional 64-bit values laid out in order are read back, provided the sentinels ask for exactly the ones present. -/
theorem zip64_values (id : UInt16) (us cs : UInt32) (u c o : Option UInt64)
    (hu : u.isSome ↔ us = 0xFFFFFFFF) (hc : c.isSome ↔ cs = 0xFFFFFFFF) :
    zip64FieldFromBytes id (optLe64 u ++ optLe64 c ++ optLe64 o) us cs = ⟨id, u, c, o, none⟩ := by
  have bu : (us == NON_ZIP64_MAX_SIZE) = u.isSome := by
    rw [Bool.eq_iff_iff, hu, beq_iff_eq]; rfl
  have bc : (cs == NON_ZIP64_MAX_SIZE) = c.isSome := by
    rw [Bool.eq_iff_iff, hc, beq_iff_eq]; rfl
  unfold zip64FieldFromBytes
  rw [bu, bc]
  have e1 : takeOpt64 u.isSome (optLe64 u ++ optLe64 c ++ optLe64 o) 0 = (u, (optLe64 u).length) := by
    cases u with
    | none => exact takeOpt64_false _ _
    | some x =>
      have := takeOpt64_some x [] (optLe64 c ++ optLe64 o) 0 rfl
      simpa [optLe64] using this
  have e2 : takeOpt64 c.isSome (optLe64 u ++ optLe64 c ++ optLe64 o) (optLe64 u).length
      = (c, (optLe64 u).length + (optLe64 c).length) := by
    cases c with
    | none => exact takeOpt64_false _ _
    | some x =>
      have := takeOpt64_some x (optLe64 u) (optLe64 o) _ rfl
      simpa [optLe64] using this
  have e3 : takeOpt64 true (optLe64 u ++ optLe64 c ++ optLe64 o) ((optLe64 u).length + (optLe64 c).length)
      = (o, (optLe64 u).length + (optLe64 c).length + (optLe64 o).length) := by
    cases o with
    | none => rw [takeOpt64_short]; rfl; simp [optLe64]
    | some x =>
      have := takeOpt64_some x (optLe64 u ++ optLe64 c) [] _ rfl
      simpa [optLe64] using this
  simp only [e1, e2, e3]
  rw [if_neg (by simp; omega)]

theorem infoZip_v1 (err : ZipError) (sz : UInt16) (crc : UInt32) (s : Bytes) (h : sz.toNat = 5 + s.length) :
    infoZipFromBytes err sz ([1] ++ le32 crc ++ s) = .ok (.v1 crc s) := by
  have hl : ([1] ++ le32 crc ++ s).length = sz.toNat := by simp [h]; omega
  have hd : ([1] ++ le32 crc ++ s) = 1 :: (le32 crc ++ s) := rfl
  have h1 : slice (1 :: (le32 crc ++ s)) 1 5 = le32 crc := by
    rw [← hd, List.append_assoc, slice_skip (n := 1) rfl (by omega)]
    exact slice_here (le32_length crc)
  have h2 : slice (1 :: (le32 crc ++ s)) 5 sz.toNat = s := by
    rw [← hd, slice_skip (n := 5) rfl (by omega)]
    exact slice_all _ _ (by omega)
  unfold infoZipFromBytes
  rw [hd]
  simp only [if_true]
  rw [← hd, if_neg (by simp), sliceChecked, if_pos (by omega), hd, h1, h2, fromLe32_le32]
  rfl

theorem infoZip_unknown (err : ZipError) (sz : UInt16) (v : UInt8) (d : Bytes) (hv : v ≠ 1) (h : sz.toNat = 1 + d.length) :
    infoZipFromBytes err sz (v :: d) = .ok (.unknown v d) := by
  have h2 : slice (v :: d) 1 sz.toNat = d := by
    rw [show v :: d = [v] ++ d from rfl, slice_skip (n := 1) rfl (by omega)]
    exact slice_all _ _ (by omega)
  simp only [infoZipFromBytes, if_neg hv, sliceChecked]
  rw [if_pos (by simp; omega), h2]
  rfl

theorem fromBytes_wf {us cs : UInt32} {f : ExtraField} (h : WellFormed us cs f) :
    extraFieldFromBytes (fieldId f) (fieldSize f) (fieldContent f) us cs = .ok f := by
  have hsz := fieldSize_toNat h
  cases f with
  | zip64 f =>
    obtain ⟨i, u, c, o, d⟩ := f
    simp only [WellFormed] at h
    obtain ⟨rfl, hu, hc, rfl⟩ := h
    simp only [extraFieldFromBytes, fieldId, ID_ZIP64, if_true, fieldContent, optLe32, List.append_nil]
    rw [zip64_values 1 us cs u c o hu hc]
  | unicodeComment f =>
    cases f with
    | v1 crc s =>
      simp only [extraFieldFromBytes, fieldId, fieldContent]
      rw [if_neg (by decide), if_pos trivial, infoZip_v1]
      · rfl
      · rw [← hsz]; simp [fieldContent]; omega
    | unknown v d =>
      simp only [WellFormed] at h
      simp only [extraFieldFromBytes, fieldId, fieldContent]
      rw [if_neg (by decide), if_pos trivial, infoZip_unknown _ _ _ _ h.1]
      · rfl
      · rw [← hsz]; simp [fieldContent]; omega
  | unicodePath f =>
    cases f with
    | v1 crc s =>
      simp only [extraFieldFromBytes, fieldId, fieldContent]
      rw [if_neg (by decide), if_neg (by decide), if_pos trivial, infoZip_v1]
      · rfl
      · rw [← hsz]; simp [fieldContent]; omega
    | unknown v d =>
      simp only [WellFormed] at h
      simp only [extraFieldFromBytes, fieldId, fieldContent]
      rw [if_neg (by decide), if_neg (by decide), if_pos trivial, infoZip_unknown _ _ _ _ h.1]
      · rfl
      · rw [← hsz]; simp [fieldContent]; omega
  | unknown f =>
    simp only [WellFormed] at h
    obtain ⟨h1, h2, h3, h4⟩ := h
    simp only [extraFieldFromBytes, fieldId, fieldContent, fieldSize, ID_ZIP64, ID_UCOM, ID_UPATH, if_neg h1, if_neg h2,
      if_neg h3, ← h4]
    simp

theorem emptyContent_iff (f : ExtraField) : EmptyContent f ↔ fieldContent f = [] := by
  cases f with
  | zip64 f =>
    obtain ⟨i, u, c, o, d⟩ := f
    cases u <;> cases c <;> cases o <;> cases d <;>
      simp [EmptyContent, fieldContent, optLe64, optLe32, le64, le32, leBytes]
  | unicodeComment f => cases f <;> simp [EmptyContent, fieldContent]
  | unicodePath f => cases f <;> simp [EmptyContent, fieldContent]
  | unknown f => simp [EmptyContent, fieldContent]

theorem parse_wf (b : Build) (us cs : UInt32) (fs : List ExtraField) (hwf : ∀ f ∈ fs, WellFormed us cs f) (bs : Bytes)
    (hb : extraAsBytes fs = .ok bs) :
    parseExtraLoop b us cs bs
      = .ok (match fs.getLast? with | some f => if EmptyContent f then fs.dropLast else fs | none => fs) := by
  induction fs generalizing bs with
  | nil =>
    simp only [extraAsBytes, Except.ok.injEq] at hb
    subst hb
    rw [parseExtraLoop_short _ _ _ _ (by simp)]
    rfl
  | cons f fs ih =>
    obtain ⟨b1, h1, h2⟩ := bind_ok hb
    obtain ⟨b2, h3, h4⟩ := bind_ok h2
    have hf := hwf f (by simp)
    rw [asBytes_wf hf, Except.ok.injEq] at h1
    simp only [res_pure, Except.ok.injEq] at h4
    subst h1 h4
    have hrec := ih (fun g hg => hwf g (by simp [hg])) b2 h3
    simp only [List.append_assoc]
    by_cases hz : (fieldContent f).length + b2.length = 0
    · have hb2 : b2 = [] := List.eq_nil_of_length_eq_zero (by omega)
      have hc : fieldContent f = [] := List.eq_nil_of_length_eq_zero (by omega)
      have hfs : fs = [] := by
        cases fs with
        | nil => rfl
        | cons g gs =>
          obtain ⟨x, hx1, hx2⟩ := bind_ok h3
          obtain ⟨y, hy1, hy2⟩ := bind_ok hx2
          rw [asBytes_wf (hwf g (by simp)), Except.ok.injEq] at hx1
          simp only [res_pure, Except.ok.injEq] at hy2
          rw [← hx1, hb2] at hy2
          have := congrArg List.length hy2
          simp at this
      subst hfs
      rw [hc, hb2, parseExtraLoop_short _ _ _ _ (by simp)]
      simp [(emptyContent_iff f).2 hc]
    · rw [parseExtraLoop_step b us cs _ _ _ _ (fieldSize_toNat hf) (by omega), fromBytes_wf hf, hrec]
      simp only [res_ok_bind, res_pure]
      cases fs with
      | nil =>
        simp only [extraAsBytes, Except.ok.injEq] at h3
        subst h3
        have hc : ¬ EmptyContent f := by
          rw [emptyContent_iff]; intro hc; simp [hc] at hz
        simp [hc]
      | cons g gs =>
        simp only [List.getLast?_cons_cons]
        cases hg : (g :: gs).getLast? with
        | none => simp at hg
        | some l =>
          simp only []
          split <;> rfl

/-! ### Lengths -/

theorem asBytes_length {f : ExtraField} {b : Bytes} (h : f.asBytes = .ok b) :
    b.length + 4 * diskFields [f] = f.countBytes := by
  cases f with
  | zip64 f =>
    obtain ⟨i, u, c, o, d⟩ := f
    simp only [ExtraField.asBytes, Except.ok.injEq] at h
    subst h
    cases u <;> cases c <;> cases o <;> cases d <;>
      simp [Zip64Field.asBytes, Zip64Field.contentSize, ExtraField.countBytes, Zip64Field.countBytes, diskFields,
        optLe64, optLe32]
  | unicodeComment f =>
    cases f <;> simp only [ExtraField.asBytes, InfoZipField.asBytes] at h <;> split at h <;>
      simp only [Except.ok.injEq, reduceCtorEq] at h <;> subst h <;>
      simp [ExtraField.countBytes, InfoZipField.countBytes, diskFields] <;> omega
  | unicodePath f =>
    cases f <;> simp only [ExtraField.asBytes, InfoZipField.asBytes] at h <;> split at h <;>
      simp only [Except.ok.injEq, reduceCtorEq] at h <;> subst h <;>
      simp [ExtraField.countBytes, InfoZipField.countBytes, diskFields] <;> omega
  | unknown f =>
    simp only [ExtraField.asBytes, Except.ok.injEq] at h
    subst h
    simp [UnknownField.asBytes, ExtraField.countBytes, UnknownField.countBytes, diskFields]; omega

theorem diskFields_cons (f : ExtraField) (fs : List ExtraField) : diskFields (f :: fs) = diskFields [f] + diskFields fs := by
  cases f <;> simp [diskFields]

theorem extraAsBytes_length {fs : List ExtraField} {b : Bytes} (h : extraAsBytes fs = .ok b) :
    b.length + 4 * diskFields fs = extraCountBytes fs := by
  induction fs generalizing b with
  | nil => simp only [extraAsBytes, Except.ok.injEq] at h; subst h; rfl
  | cons f fs ih =>
    obtain ⟨b1, h1, h2⟩ := bind_ok h
    obtain ⟨b2, h3, h4⟩ := bind_ok h2
    simp only [res_pure, Except.ok.injEq] at h4
    subst h4
    have e1 := asBytes_length h1
    have e2 := ih h3
    rw [diskFields_cons]
    simp only [List.length_append, extraCountBytes]
    omega

/-- Serialising extra fields whose declared length fits in 16 bits does not panic. -/
theorem extraAsBytes_ok (fs : List ExtraField) (h : extraCountBytes fs < 2 ^ 16) : ∃ b, extraAsBytes fs = .ok b := by
  induction fs with
  | nil => exact ⟨[], rfl⟩
  | cons f fs ih =>
    simp only [extraCountBytes] at h
    obtain ⟨b2, hb2⟩ := ih (by omega)
    have : ∃ b1, f.asBytes = .ok b1 := by
      cases f with
      | zip64 f => exact ⟨_, rfl⟩
      | unknown f => exact ⟨_, rfl⟩
      | unicodeComment f =>
        cases f <;> simp only [ExtraField.countBytes, InfoZipField.countBytes] at h <;>
          simp only [ExtraField.asBytes, InfoZipField.asBytes] <;> rw [if_pos (by omega)] <;> exact ⟨_, rfl⟩
      | unicodePath f =>
        cases f <;> simp only [ExtraField.countBytes, InfoZipField.countBytes] at h <;>
          simp only [ExtraField.asBytes, InfoZipField.asBytes] <;> rw [if_pos (by omega)] <;> exact ⟨_, rfl⟩
    obtain ⟨b1, hb1⟩ := this
    exact ⟨b1 ++ b2, by simp [extraAsBytes, hb1, hb2]⟩

/-! ### Arbitrary bytes -/

/-- The parser's error value is never a number that fits: the subtraction it reports always underflows. -/
theorem extraRemaining_underflow (b : Build) (r n : Nat) (h : r < 4 + n) :
    extraRemaining b r n = if b.overflowChecks then .error .panic else .ok (2 ^ 64 + r - 8 - n) := by
  unfold extraRemaining
  rw [if_neg (by omega)]

theorem sliceChecked_full (data : Bytes) (i : Nat) (n : UInt16) (hn : n.toNat = data.length) (hi : i ≤ data.length) :
    sliceChecked data i n.toNat = .ok (data.drop i) := by
  unfold sliceChecked
  rw [if_pos (by omega), slice, List.take_of_length_le (by simp; omega)]

theorem infoZip_cases (err : ZipError) (sz : UInt16) (data : Bytes) (hn : sz.toNat = data.length) :
    infoZipFromBytes err sz data = .error (.err err) ∨
    (∃ crc s, infoZipFromBytes err sz data = .ok (.v1 crc s) ∧ data = [1] ++ le32 crc ++ s) ∨
    (∃ v d, infoZipFromBytes err sz data = .ok (.unknown v d) ∧ v ≠ 1 ∧ data = v :: d) := by
  cases data with
  | nil => left; rfl
  | cons v d =>
    simp only [infoZipFromBytes]
    split
    · rename_i hv
      split
      · left; rfl
      · rename_i hl
        right; left
        rw [sliceChecked_full _ _ _ hn (by omega)]
        refine ⟨_, _, rfl, ?_⟩
        rw [le32_fromLe32 _ (by simp [slice]; simp at hl; omega)]
        subst hv
        have : slice (1 :: d) 1 5 = d.take 4 := by simp [slice]
        rw [this]
        simp
    · rename_i hv
      right; right
      rw [sliceChecked_full _ _ _ hn (by simp)]
      exact ⟨v, d, rfl, hv, rfl⟩

theorem takeOpt64_spec (w : Bool) (data : Bytes) (i : Nat) (hi : i ≤ data.length) :
    (takeOpt64 w data i).2 ≤ data.length ∧
    data.drop i = (takeOpt64 w data i).1.elim [] (fun x => le64 x) ++ data.drop (takeOpt64 w data i).2 := by
  unfold takeOpt64
  split
  · rename_i h
    simp only [Bool.and_eq_true, decide_eq_true_eq] at h
    refine ⟨h.2, ?_⟩
    simp only [Option.elim]
    rw [le64_fromLe64 _ (by rw [slice_length _ _ _ h.2]; omega), slice, show i + 8 - i = 8 by omega, ← List.drop_drop]
    exact (List.take_append_drop 8 _).symm
  · exact ⟨hi, by simp⟩

theorem zip64_represents (id : UInt16) (data : Bytes) (us cs : UInt32) (hid : id = ID_ZIP64) :
    Represents (.zip64 (zip64FieldFromBytes id data us cs)) (id.toNat, data) := by
  subst hid
  refine ⟨rfl, rfl, ?_⟩
  simp only [zip64FieldFromBytes]
  obtain ⟨h1, e1⟩ := takeOpt64_spec (us == NON_ZIP64_MAX_SIZE) data 0 (by omega)
  obtain ⟨h2, e2⟩ := takeOpt64_spec (cs == NON_ZIP64_MAX_SIZE) data _ h1
  obtain ⟨h3, e3⟩ := takeOpt64_spec true data _ h2
  rw [List.drop_zero] at e1
  rw [e2, e3] at e1
  generalize (takeOpt64 true data (takeOpt64 (cs == NON_ZIP64_MAX_SIZE) data
    (takeOpt64 (us == NON_ZIP64_MAX_SIZE) data 0).2).2).2 = k at *
  split
  · rename_i hk
    refine ⟨data.drop (k + 4), ?_⟩
    have e4 : data.drop k = le32 (fromLe32 (slice data k (k + 4))) ++ data.drop (k + 4) := by
      rw [le32_fromLe32 _ (by rw [slice_length _ _ _ hk]; omega), slice, show k + 4 - k = 4 by omega, ← List.drop_drop]
      exact (List.take_append_drop 4 _).symm
    rw [e4] at e1
    conv => lhs; rw [e1]
    simp [le64, le32]
  · refine ⟨data.drop k, ?_⟩
    conv => lhs; rw [e1]
    simp [le64]

/-- Decoding one block: an error of the block's kind, or a faithful field. Never a panic. -/
theorem fromBytes_cases (id sz : UInt16) (data : Bytes) (us cs : UInt32) (hn : sz.toNat = data.length) :
    (∃ e, extraFieldFromBytes id sz data us cs = .error (.err e)) ∨
    (∃ f, extraFieldFromBytes id sz data us cs = .ok f ∧ Represents f (id.toNat, data)) := by
  unfold extraFieldFromBytes
  split
  · rename_i h
    exact .inr ⟨_, rfl, zip64_represents id data us cs h⟩
  · rename_i h0
    split
    · rename_i h1
      subst h1
      rcases infoZip_cases .infoZipUnicodeCommentFieldIncomplete sz data hn with h | ⟨crc, s, h, hd⟩ | ⟨v, d, h, hv, hd⟩
      · exact .inl ⟨_, by rw [h]; rfl⟩
      · exact .inr ⟨.unicodeComment (.v1 crc s), by rw [h]; rfl, rfl, hd⟩
      · exact .inr ⟨.unicodeComment (.unknown v d), by rw [h]; rfl, rfl, hv, hd⟩
    · rename_i h1
      split
      · rename_i h2
        subst h2
        rcases infoZip_cases .infoZipUnicodePathFieldIncomplete sz data hn with h | ⟨crc, s, h, hd⟩ | ⟨v, d, h, hv, hd⟩
        · exact .inl ⟨_, by rw [h]; rfl⟩
        · exact .inr ⟨.unicodePath (.v1 crc s), by rw [h]; rfl, rfl, hd⟩
        · exact .inr ⟨.unicodePath (.unknown v d), by rw [h]; rfl, rfl, hv, hd⟩
      · rename_i h2
        refine .inr ⟨_, rfl, ?_⟩
        have ne : ∀ x y : UInt16, x ≠ y → x.toNat ≠ y.toNat := fun x y h h' => h (UInt16.toNat.inj h')
        exact ⟨ne _ _ h0, ne _ _ h1, ne _ _ h2, rfl, hn, rfl⟩

/-- What the parser does with any byte string. -/
theorem parse_any (b : Build) (us cs : UInt32) (data : Bytes) :
    (∃ fs rs tail, parseExtraLoop b us cs data = .ok fs ∧ Blocks data rs tail ∧ tail.length ≤ 4 ∧
      List.Forall₂ Represents fs rs) ∨
    (∃ e, parseExtraLoop b us cs data = .error (.err e)) ∨
    (parseExtraLoop b us cs data = .error .panic ∧ b.overflowChecks = true ∧
      ∃ rs tail, Blocks data rs tail ∧ Overlong tail) := by
  induction hn : data.length using Nat.strongRecOn generalizing data with
  | _ n ih =>
  unfold parseExtraLoop
  split
  · rename_i h4
    have hid := fromLe16_slice data 0 (by omega)
    have hsz := fromLe16_slice data 2 (by omega)
    simp only [Nat.zero_add, Nat.reduceAdd] at hid hsz
    simp only []
    split
    · rename_i hlong
      rw [extraRemaining_underflow _ _ _ (by omega)]
      split
      · rename_i ho
        right; right
        exact ⟨rfl, ho, [], data, Blocks.nil data, by omega, by omega⟩
      · right; left
        exact ⟨_, rfl⟩
    · rename_i hfit
      have hslice : slice data 4 (4 + (fromLe16 (slice data 2 4)).toNat) = (data.drop 4).take (fieldAt data 2 2) := by
        rw [hsz, slice]; congr 1; omega
      rw [hslice]
      rcases fromBytes_cases (fromLe16 (slice data 0 2)) (fromLe16 (slice data 2 4))
          ((data.drop 4).take (fieldAt data 2 2)) us cs (by rw [hsz]; simp; omega) with ⟨e, he⟩ | ⟨f, hf, hrep⟩
      · right; left
        exact ⟨e, by rw [he]; rfl⟩
      · rw [hf]
        simp only [res_ok_bind]
        rw [hid] at hrep
        rcases ih _ (by simp; omega) (data.drop (4 + (fromLe16 (slice data 2 4)).toNat)) rfl with
          ⟨fs, rs, tail, h1, h2, h3, h5⟩ | ⟨e, he⟩ | ⟨hp, ho, rs, tail, h2, h3⟩
        · left
          rw [h1]
          rw [hsz] at h2
          exact ⟨_, _, tail, rfl, Blocks.cons data rs tail (by omega) h2, h3, .cons hrep h5⟩
        · right; left
          exact ⟨e, by rw [he]; rfl⟩
        · right; right
          rw [hp]
          rw [hsz] at h2
          exact ⟨rfl, ho, _, tail, Blocks.cons data rs tail (by omega) h2, h3⟩
  · rename_i h4
    left
    exact ⟨[], [], data, rfl, Blocks.nil data, by omega, .nil⟩

theorem blocks_long {data tail : Bytes} {rs : List (Nat × Bytes)} (h : Blocks data rs tail) (ho : Overlong tail) :
    4 < data.length := by
  induction h with
  | nil => exact ho.1
  | cons b rs tail hl hr ih => have := ih ho; simp at this; omega

/-- Blocks in front of an overlong one do not help: the parser does not return fields. -/
theorem parse_overlong (b : Build) (us cs : UInt32) (data : Bytes) (rs : List (Nat × Bytes)) (tail : Bytes)
    (h : Blocks data rs tail) (ho : Overlong tail) (fs : List ExtraField) : parseExtraLoop b us cs data ≠ .ok fs := by
  induction h generalizing fs with
  | nil tail =>
    obtain ⟨h1, h2⟩ := ho
    have hsz := fromLe16_slice tail 2 (by omega)
    simp only [Nat.reduceAdd] at hsz
    unfold parseExtraLoop
    rw [dif_pos h1]
    simp only []
    rw [if_pos (by omega)]
    rw [extraRemaining_underflow _ _ _ (by omega)]
    split <;> simp
  | cons data rs tail hlen hrest ih =>
    intro hok
    have hlong := blocks_long (Blocks.cons data rs tail hlen hrest) ho
    have hsz := fromLe16_slice data 2 (by omega)
    simp only [Nat.reduceAdd] at hsz
    unfold parseExtraLoop at hok
    rw [dif_pos hlong] at hok
    simp only [] at hok
    rw [if_neg (by omega)] at hok
    obtain ⟨f, _, h2⟩ := bind_ok hok
    obtain ⟨fs', h3, _⟩ := bind_ok h2
    rw [hsz] at h3
    exact ih ho fs' h3

end AsyncZip
