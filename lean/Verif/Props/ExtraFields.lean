import Verif.Proofs.Extra
import Verif.Model.Read
/-!
# C04, C05, C06, C07: extra fields
-/

namespace AsyncZip
open Spec

/-- A varied list of extra fields for a header whose sizes are both saturated. -/
def sampleFields : List ExtraField :=
  [.unknown ⟨0x5455, 5, [3, 1, 2, 3, 4]⟩, .zip64 ⟨1, some 5000000000, some 4999999999, some 7, none⟩,
   .unicodePath (.v1 0xCAFEBABE [0xC3, 0xA9]), .unicodeComment (.unknown 2 [9]), .unknown ⟨0xFFFF, 1, [0]⟩]

/-! ## C04 -/

/-- C04 (partial). Any list of well-formed fields, of any length, is parsed back from its serialisation, except that the
parser drops the last field if that field has no content.
Missing from the full claim: a zero-length last field is lost, see `C04_extra_fields_roundtrip_fails`. -/
theorem C04_extra_fields_roundtrip_partial (b : Build) (us cs : UInt32) (fs : List ExtraField)
    (hwf : ∀ f ∈ fs, WellFormed us cs f) (bytes : Bytes) (hb : extraAsBytes fs = .ok bytes) :
    parseExtraFields b bytes us cs
      = .ok (match fs.getLast? with | some f => if EmptyContent f then fs.dropLast else fs | none => fs) :=
  parse_wf b us cs fs hwf bytes hb

/-- C04. With a non-empty last field the list itself comes back. -/
theorem C04_extra_fields_roundtrip_nonempty_last (b : Build) (us cs : UInt32) (fs : List ExtraField)
    (hwf : ∀ f ∈ fs, WellFormed us cs f) (hlast : ∀ f, fs.getLast? = some f → ¬ EmptyContent f)
    (bytes : Bytes) (hb : extraAsBytes fs = .ok bytes) : parseExtraFields b bytes us cs = .ok fs := by
  rw [C04_extra_fields_roundtrip_partial b us cs fs hwf bytes hb]
  cases h : fs.getLast? with
  | none => rfl
  | some f => simp [hlast f h]

/-- C04. Serialising a list whose declared length fits the header's 16-bit length field always succeeds. -/
theorem C04_extra_fields_serialise (fs : List ExtraField) (h : extraCountBytes fs < 2 ^ 16) :
    ∃ bytes, extraAsBytes fs = .ok bytes := extraAsBytes_ok fs h

/-- C04, negative. A well-formed zero-length field in last position does not come back. -/
theorem C04_extra_fields_roundtrip_fails :
    ∃ (f : ExtraField) (bytes : Bytes), WellFormed 0 0 f ∧ extraAsBytes [f] = .ok bytes ∧
      ∀ b : Build, parseExtraFields b bytes 0 0 = .ok [] :=
  ⟨.unknown ⟨0x9901, 0, []⟩, [0x01, 0x99, 0, 0], by decide, by decide,
    fun b => parseExtraLoop_short b 0 0 _ (by simp)⟩

/-- The hypotheses of C04 hold for a five-field list with every kind of field. -/
example : (∀ f ∈ sampleFields, WellFormed 0xFFFFFFFF 0xFFFFFFFF f) ∧
    (∀ f, sampleFields.getLast? = some f → ¬ EmptyContent f) ∧
    (∃ bytes, extraAsBytes sampleFields = .ok bytes ∧ bytes.length = 59) := by
  refine ⟨by decide, ?_, ⟨_, rfl, by decide⟩⟩
  intro f hf
  simp only [sampleFields, List.getLast?_cons_cons, List.getLast?_singleton, Option.some.injEq] at hf
  subst hf
  decide

/-! ## C05 -/

/-- C05 (partial). The length declared for a list of extra fields exceeds the bytes emitted by exactly four per ZIP64 field
that carries a disk number; without such fields it is exact.
Missing from the full claim: fields with a disk number, see `C05_declared_length_fails`. -/
theorem C05_declared_length_partial (fs : List ExtraField) (bytes : Bytes) (h : extraAsBytes fs = .ok bytes) :
    extraCountBytes fs = bytes.length + 4 * diskFields fs ∧
      ((∀ f, .zip64 f ∈ fs → f.diskStartNumber = none) → extraCountBytes fs = bytes.length) := by
  have := extraAsBytes_length h
  refine ⟨this.symm, fun hd => ?_⟩
  have : diskFields fs = 0 := by
    clear h this
    induction fs with
    | nil => rfl
    | cons f fs ih =>
      rw [diskFields_cons, ih (fun g hg => hd g (by simp [hg]))]
      cases f with
      | zip64 f => simp [diskFields, hd f (by simp)]
      | _ => rfl
  omega

/-- C05, each field (partial). The size written inside an emitted field is the number of bytes that follow it, and emitting
panics exactly when the content of an Info-ZIP field would not fit in 16 bits, so that a size is never wrapped.
Missing from the full claim: fields with a disk number, and unknown fields whose public `data_size` is not the length of
their content. -/
theorem C05_field_size_partial (f : ExtraField) (hz : ∀ g, f = .zip64 g → g.diskStartNumber = none)
    (hu : ∀ g, f = .unknown g → g.dataSize.toNat = g.content.length) :
    (∀ b, f.asBytes = .ok b → 4 ≤ b.length ∧ fieldAt b 2 2 + 4 = b.length) ∧
      (f.asBytes = .error .panic ↔ ∃ g, (f = .unicodeComment g ∨ f = .unicodePath g) ∧
        match g with
        | .v1 _ text => 65535 < 1 + 4 + text.length
        | .unknown _ data => 65535 < 1 + data.length) := by
  have hle : ∀ (a n : UInt16) (rest : Bytes), fieldAt (le16 a ++ le16 n ++ rest) 2 2 = n.toNat := by
    intro a n rest
    rw [← fromLe16_slice _ 2 (by simp; omega)]
    have : slice (le16 a ++ le16 n ++ rest) 2 (2 + 2) = le16 n := rfl
    rw [this, fromLe16_le16]
  cases f with
  | zip64 g =>
    have hd := hz g rfl
    refine ⟨fun b h => ?_, by simp [ExtraField.asBytes]⟩
    simp only [ExtraField.asBytes, Except.ok.injEq] at h
    subst h
    obtain ⟨i, u, c, o, d⟩ := g
    simp only at hd
    subst hd
    have e : ∀ rest : Bytes, rest.length = Zip64Field.contentSize ⟨i, u, c, o, none⟩ →
        4 ≤ (le16 i ++ le16 (UInt16.ofNat (Zip64Field.contentSize ⟨i, u, c, o, none⟩)) ++ rest).length ∧
        fieldAt (le16 i ++ le16 (UInt16.ofNat (Zip64Field.contentSize ⟨i, u, c, o, none⟩)) ++ rest) 2 2 + 4 =
          (le16 i ++ le16 (UInt16.ofNat (Zip64Field.contentSize ⟨i, u, c, o, none⟩)) ++ rest).length := by
      intro rest hr
      have := zip64_contentSize_le ⟨i, u, c, o, none⟩
      rw [hle, UInt16.toNat_ofNat', Nat.mod_eq_of_lt (by omega)]
      simp only [List.length_append, le16_length]
      omega
    have := e (optLe64 u ++ optLe64 c ++ optLe64 o ++ optLe32 none) (by
      cases u <;> cases c <;> cases o <;> simp [Zip64Field.contentSize, optLe64, optLe32])
    simpa only [Zip64Field.asBytes, List.append_assoc] using this
  | unicodeComment g =>
    cases g <;> simp only [ExtraField.asBytes, InfoZipField.asBytes]
    all_goals
      refine ⟨fun b h => ?_, ?_⟩
      · split at h <;> simp only [Except.ok.injEq, reduceCtorEq] at h
        subst h
        simp only [List.append_assoc]
        rw [← List.append_assoc, hle, UInt16.toNat_ofNat', Nat.mod_eq_of_lt (by omega)]
        simp only [List.length_append, le16_length, le32_length, List.length_cons, List.length_nil]
        omega
      · split <;> simp <;> omega
  | unicodePath g =>
    cases g <;> simp only [ExtraField.asBytes, InfoZipField.asBytes]
    all_goals
      refine ⟨fun b h => ?_, ?_⟩
      · split at h <;> simp only [Except.ok.injEq, reduceCtorEq] at h
        subst h
        simp only [List.append_assoc]
        rw [← List.append_assoc, hle, UInt16.toNat_ofNat', Nat.mod_eq_of_lt (by omega)]
        simp only [List.length_append, le16_length, le32_length, List.length_cons, List.length_nil]
        omega
      · split <;> simp <;> omega
  | unknown g =>
    have hg := hu g rfl
    refine ⟨fun b h => ?_, by simp [ExtraField.asBytes]⟩
    simp only [ExtraField.asBytes, Except.ok.injEq] at h
    subst h
    simp only [UnknownField.asBytes]
    rw [hle]
    simp only [List.length_append, le16_length]
    omega

/-- The hypotheses of `C05_field_size_partial` hold for every field of the sample. -/
example : ∀ f ∈ sampleFields, (∀ g, f = .zip64 g → g.diskStartNumber = none) ∧
    (∀ g, f = .unknown g → g.dataSize.toNat = g.content.length) := by
  simp only [sampleFields, List.forall_mem_cons]
  refine ⟨?_, ?_, ?_, ?_, ?_, by simp⟩ <;> refine ⟨?_, ?_⟩ <;> intro g h <;> cases h <;> rfl

/-- C05, negative. For a field with a disk number, as the reader produces from a 12-byte ZIP64 block, the declared length
is not the emitted length. -/
theorem C05_declared_length_fails :
    ∃ (content : Bytes) (bytes : Bytes), content.length = 12 ∧
      extraAsBytes [.zip64 (zip64FieldFromBytes 1 content 0 0)] = .ok bytes ∧
      extraCountBytes [.zip64 (zip64FieldFromBytes 1 content 0 0)] = bytes.length + 4 :=
  ⟨[1, 0, 0, 0, 0, 0, 0, 0, 2, 0, 0, 0], _, rfl, rfl, by decide⟩

example : ∃ bytes, extraAsBytes sampleFields = .ok bytes ∧ extraCountBytes sampleFields = bytes.length :=
  ⟨_, rfl, by decide⟩

/-! ## C06 -/

/-- C06 (partial). For every byte string the parser returns fields that faithfully represent consecutive blocks covering all
but at most four trailing bytes, or reports an error; it panics only in builds with overflow checks, and then only when
some block is overlong.
Missing from the full claim: freedom from panics in builds with overflow checks, see `C06_parse_no_panic_fails`. -/
theorem C06_parse_exact_partial (b : Build) (data : Bytes) (us cs : UInt32) :
    (∃ fs rs tail, parseExtraFields b data us cs = .ok fs ∧ Blocks data rs tail ∧ tail.length ≤ 4 ∧
      List.Forall₂ Represents fs rs) ∨
    (∃ e, parseExtraFields b data us cs = .error (.err e)) ∨
    (parseExtraFields b data us cs = .error .panic ∧ b.overflowChecks = true ∧
      ∃ rs tail, Blocks data rs tail ∧ Overlong tail) :=
  parse_any b us cs data

/-- C06. Without overflow checks (release builds) the parser never panics. -/
theorem C06_parse_no_panic_release (b : Build) (hb : b.overflowChecks = false) (data : Bytes) (us cs : UInt32) :
    parseExtraFields b data us cs ≠ .error .panic := by
  intro h
  rcases parse_any b us cs data with ⟨fs, _, _, h', _⟩ | ⟨e, h'⟩ | ⟨_, h', _⟩
  · rw [parseExtraFields] at h; rw [h] at h'; cases h'
  · rw [parseExtraFields] at h; rw [h] at h'; cases h'
  · simp [hb] at h'

/-- C06. A block that claims more bytes than remain is never accepted, wherever it stands. -/
theorem C06_overlong_rejected (b : Build) (data : Bytes) (us cs : UInt32) (rs : List (Nat × Bytes)) (tail : Bytes)
    (h : Blocks data rs tail) (ho : Overlong tail) (fs : List ExtraField) : parseExtraFields b data us cs ≠ .ok fs :=
  parse_overlong b us cs data rs tail h ho fs

/-- C06, negative. With overflow checks, five bytes declaring a two-byte field make the parser panic: the error branch
computes `data.len() - cursor - 8 - field_size`, which underflows. -/
theorem C06_parse_no_panic_fails (b : Build) (hb : b.overflowChecks = true) :
    parseExtraFields b [0x55, 0x54, 2, 0, 7] 0 0 = .error .panic := by
  unfold parseExtraFields parseExtraLoop
  rw [dif_pos (by decide)]
  simp only []
  rw [if_pos (by decide), extraRemaining, if_neg (by decide), if_pos hb]
  rfl

example : Overlong [0x55, 0x54, 2, 0, 7] := by constructor <;> decide
example : Blocks [0x99, 0x01, 1, 0, 5, 0x55, 0x54, 2, 0, 7] [(0x199, [5])] [0x55, 0x54, 2, 0, 7] :=
  Blocks.cons [0x99, 0x01, 1, 0, 5, 0x55, 0x54, 2, 0, 7] [] _ (by decide) (Blocks.nil _)

/-! ## C07 -/

/-- C07. The values an entry gets from its 32-bit fields and the content of its first ZIP64 field: a 64-bit value is used
exactly for a saturated 32-bit field, in the order uncompressed, compressed, offset, as long as the content provides
it; every other field keeps its 32-bit value. Holds for every content, truncated or oversized. -/
theorem C07_zip64_values (content : Bytes) (us cs off : UInt32) (pre post : List ExtraField)
    (hpre : ∀ f, ExtraField.zip64 f ∉ pre) :
    let f := getZip64ExtraField (pre ++ .zip64 (zip64FieldFromBytes ID_ZIP64 content us cs) :: post)
    let i := if us = 0xFFFFFFFF ∧ 8 ≤ content.length then 8 else 0
    let j := if cs = 0xFFFFFFFF ∧ i + 8 ≤ content.length then i + 8 else i
    (getCombinedSizes us cs f).1.toNat
        = (if us = 0xFFFFFFFF ∧ 8 ≤ content.length then fieldAt content 0 8 else us.toNat) ∧
    (getCombinedSizes us cs f).2.toNat
        = (if cs = 0xFFFFFFFF ∧ i + 8 ≤ content.length then fieldAt content i 8 else cs.toNat) ∧
    (selectOffset off f).toNat
        = (if off = 0xFFFFFFFF ∧ j + 8 ≤ content.length then fieldAt content j 8 else off.toNat) := by
  have hget : getZip64ExtraField (pre ++ .zip64 (zip64FieldFromBytes ID_ZIP64 content us cs) :: post)
      = some (zip64FieldFromBytes ID_ZIP64 content us cs) := by
    induction pre with
    | nil => rfl
    | cons g gs ih =>
      cases g with
      | zip64 g => exact absurd (by simp) (hpre g)
      | _ => exact ih (fun f hf => hpre f (by simp [hf]))
  have key : ∀ (w : UInt32) (k : Nat), takeOpt64 (w == 0xFFFFFFFF) content k
      = if w = 0xFFFFFFFF ∧ k + 8 ≤ content.length then (some (fromLe64 (slice content k (k + 8))), k + 8)
        else (none, k) := by
    intro w k
    unfold takeOpt64
    simp
  have keyT : ∀ (k : Nat), takeOpt64 true content k
      = if k + 8 ≤ content.length then (some (fromLe64 (slice content k (k + 8))), k + 8) else (none, k) := by
    intro k
    unfold takeOpt64
    simp
  have val : ∀ k, k + 8 ≤ content.length → (fromLe64 (slice content k (k + 8))).toNat = fieldAt content k 8 := by
    intro k hk
    rw [fieldAt_eq _ _ _ hk]
    have := leNat_lt (slice content k (k + 8))
    rw [slice_length _ _ _ hk, show k + 8 - k = 8 by omega] at this
    simp only [fromLe64, UInt64.toNat_ofNat']
    exact Nat.mod_eq_of_lt (by omega)
  simp only []
  rw [hget]
  simp only [zip64FieldFromBytes, getCombinedSizes, selectOffset, NON_ZIP64_MAX_SIZE, key, keyT, Nat.zero_add]
  have v0 := val 0
  simp only [Nat.zero_add] at v0
  have v8 := val 8
  have v16 := val 16
  by_cases hu : us = 0xFFFFFFFF <;> by_cases hc : cs = 0xFFFFFFFF <;> by_cases ho : off = 0xFFFFFFFF <;>
  by_cases l8 : 8 ≤ content.length <;> by_cases l16 : 16 ≤ content.length <;> by_cases l24 : 24 ≤ content.length <;>
  first
  | omega
  | simp [*]

/-- C07. Without a ZIP64 field all 32-bit values are kept. -/
theorem C07_no_zip64_field (us cs off : UInt32) (fs : List ExtraField) (h : ∀ f, ExtraField.zip64 f ∉ fs) :
    (getCombinedSizes us cs (getZip64ExtraField fs)).1.toNat = us.toNat ∧
    (getCombinedSizes us cs (getZip64ExtraField fs)).2.toNat = cs.toNat ∧
    (selectOffset off (getZip64ExtraField fs)).toNat = off.toNat := by
  have : getZip64ExtraField fs = none := by
    induction fs with
    | nil => rfl
    | cons g gs ih =>
      cases g with
      | zip64 g => exact absurd (by simp) (h g)
      | _ => exact ih (fun f hf => h f (by simp [hf]))
  rw [this]
  simp [getCombinedSizes, selectOffset]

/-- C07 on concrete data: both sizes saturated, offset not. -/
example : getCombinedSizes 0xFFFFFFFF 0xFFFFFFFF
    (getZip64ExtraField [.unknown ⟨5, 0, []⟩, .zip64 (zip64FieldFromBytes ID_ZIP64
      (le64 5000000000 ++ le64 4999999999) 0xFFFFFFFF 0xFFFFFFFF)]) = (5000000000, 4999999999) := by decide

end AsyncZip
