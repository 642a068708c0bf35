import Verif.Proofs.Open
import Verif.Proofs.Extra
import Verif.Proofs.Layout
import Verif.Props.Metadata
import Verif.Props.ExtraFields
import Verif.Spec.Archive
/-!
# What a successful opening means
-/

namespace AsyncZip
open Spec Rd

/-- A field of `w` bytes is below `256 ^ w` (bytes past the end count as zero). -/
theorem fieldAt_lt' (b : Bytes) (i w : Nat) : fieldAt b i w < 256 ^ w := by
  have h := fieldAt_lt (b ++ List.replicate (i + w) 0) i w (by simp)
  have e : fieldAt b i w = fieldAt (b ++ List.replicate (i + w) 0) i w := by
    unfold fieldAt
    congr 1
    apply List.map_congr_left
    intro k hk
    rw [List.getD_eq_getElem?_getD, List.getD_eq_getElem?_getD, List.getElem?_append]
    split
    · rfl
    · rename_i hk'
      rw [List.getElem?_eq_none (by omega), List.getElem?_replicate]
      split <;> rfl
  rw [e]
  exact h

theorem fieldAt_window {data b : Bytes} {pos n : Nat} (hb : b = (data.drop pos).take n) (hn : b.length = n) (i w : Nat)
    (h : i + w ≤ n) : fieldAt b i w = fieldAt data (pos + i) w := by
  unfold fieldAt
  congr 1
  apply List.map_congr_left
  intro k hk
  have hk := List.mem_range.1 hk
  subst hb
  rw [List.getD_eq_getElem?_getD, List.getD_eq_getElem?_getD, List.getElem?_take_of_lt (by omega), List.getElem?_drop,
    Nat.add_assoc]

theorem read16 {data b : Bytes} {pos n : Nat} (hb : b = (data.drop pos).take n) (hn : b.length = n) (i : Nat)
    (h : i + 2 ≤ n) : (fromLe16 (slice b i (i + 2))).toNat = fieldAt data (pos + i) 2 := by
  rw [fromLe16_slice b i (by omega), fieldAt_window hb hn i 2 h]

theorem read32 {data b : Bytes} {pos n : Nat} (hb : b = (data.drop pos).take n) (hn : b.length = n) (i : Nat)
    (h : i + 4 ≤ n) : (fromLe32 (slice b i (i + 4))).toNat = fieldAt data (pos + i) 4 := by
  rw [fromLe32_slice b i (by omega), fieldAt_window hb hn i 4 h]

theorem fromLe64_slice (b : Bytes) (i : Nat) (h : i + 8 ≤ b.length) :
    (fromLe64 (slice b i (i + 8))).toNat = fieldAt b i 8 := by
  rw [fieldAt_eq _ _ _ h]
  have := leNat_lt (slice b i (i + 8))
  rw [slice_length _ _ _ h, show i + 8 - i = 8 by omega] at this
  simp only [fromLe64, UInt64.toNat_ofNat']
  exact Nat.mod_eq_of_lt (by omega)

theorem read64 {data b : Bytes} {pos n : Nat} (hb : b = (data.drop pos).take n) (hn : b.length = n) (i : Nat)
    (h : i + 8 ≤ n) : (fromLe64 (slice b i (i + 8))).toNat = fieldAt data (pos + i) 8 := by
  rw [fromLe64_slice b i (by omega), fieldAt_window hb hn i 8 h]

/-- Four bytes decode to a constant exactly if they are its encoding. -/
theorem fromLe32_eq_iff {b : Bytes} (hb : b.length = 4) (x : UInt32) : fromLe32 b = x ↔ b = le32 x := by
  constructor
  · intro h; rw [← h, le32_fromLe32 b hb]
  · intro h; rw [h, fromLe32_le32]

theorem assertSignature_ok {x : UInt32} {s s' : RState} (h : assertSignature x s = (.ok (), s')) :
    OccursAt s.data (le32 x) s.pos ∧ s'.data = s.data ∧ s'.pos = s.pos + 4 := by
  replace h := bind_ok_iff.1 h
  obtain ⟨b, s1, h1, h2⟩ := h
  obtain ⟨e1, e2, e3, e4⟩ := readExact_ok h1
  split at h2
  · rename_i hx
    simp only [pure_def, Prod.mk.injEq] at h2
    rw [fromLe32_eq_iff e2] at hx
    refine ⟨?_, by rw [← h2.2, e3], by rw [← h2.2, e4]⟩
    unfold OccursAt
    rw [show (le32 x).length = 4 by simp, ← e1, hx]
  · simp at h2

theorem basic_new (b : Bytes) (e : StringEncoding) : (ZipString.new b e).alternative.getD (ZipString.new b e).raw = b := by
  cases e <;> rfl

theorem basic_fallback (b : Bytes) (u : Option Bytes) :
    (detectFallback b u).alternative.getD (detectFallback b u).raw = b := by
  have hp : ∀ z : ZipString, (z = if isAscii b then { encoding := .utf8, raw := b, alternative := none }
      else ZipString.new b .raw) → z.alternative.getD z.raw = b := by
    intro z hz; subst hz; split <;> rfl
  unfold detectFallback
  simp only []
  split
  · split
    · rfl
    · exact hp _ rfl
  · exact hp _ rfl

theorem basic_filename (b : Bytes) (u : Bool) (fs : List ExtraField) :
    (detectFilename b u fs).alternative.getD (detectFilename b u fs).raw = b := by
  unfold detectFilename
  split
  · exact basic_new ..
  · exact basic_fallback ..

theorem basic_comment (b : Bytes) (u : Bool) (fs : List ExtraField) :
    (detectComment b u fs).alternative.getD (detectComment b u fs).raw = b := by
  unfold detectComment
  split
  · exact basic_new ..
  · exact basic_fallback ..

theorem getZip64_none {fs : List ExtraField} (h : ∀ f, ExtraField.zip64 f ∉ fs) : getZip64ExtraField fs = none := by
  induction fs with
  | nil => rfl
  | cons g gs ih =>
    cases g with
    | zip64 g => exact absurd (by simp) (h g)
    | _ => exact ih (fun f hf => h f (by simp [hf]))

theorem getZip64_first {pre post : List ExtraField} {f : Zip64Field} (h : ∀ g, ExtraField.zip64 g ∉ pre) :
    getZip64ExtraField (pre ++ ExtraField.zip64 f :: post) = some f := by
  induction pre with
  | nil => rfl
  | cons g gs ih =>
    cases g with
    | zip64 g => exact absurd (by simp) (h g)
    | _ => exact ih (fun f hf => h f (by simp [hf]))

theorem lift_ok {α : Type} {r : Res α} {s s' : RState} {a : α} (h : lift r s = (.ok a, s')) : r = .ok a ∧ s' = s := by
  simp only [lift_def, Prod.mk.injEq] at h
  exact ⟨h.1, h.2.symm⟩

theorem compression_ok {v : UInt16} {c : Compression} (h : Compression.tryFrom v = .ok c) :
    (c, v.toNat) ∈ methodTable := by
  revert h
  unfold Compression.tryFrom
  repeat' split
  all_goals
    intro h
    first
    | cases h
      subst_vars
      decide
    | cases h

/-- The window read, when positions are exact or the data ran out. -/
theorem window_step {data : Bytes} {p q n : Nat} (hpq : p = q ∨ (data.length ≤ p ∧ data.length ≤ q)) :
    (data.drop p).take n = window data q n ∧
    (p + ((data.drop p).take n).length = q + n ∨
      (data.length ≤ p + ((data.drop p).take n).length ∧ data.length ≤ q + n)) := by
  rcases hpq with h | ⟨h1, h2⟩
  · subst h
    refine ⟨rfl, ?_⟩
    rw [List.length_take, List.length_drop]
    omega
  · refine ⟨?_, Or.inr ⟨by omega, by omega⟩⟩
    unfold window
    rw [List.drop_eq_nil_of_le h1, List.drop_eq_nil_of_le h2]

/-- The ZIP64 field that counts is the first ZIP64 block, read as its header says. -/
theorem parse_content {b : Build} {us cs : UInt32} {x : Bytes} {fs : List ExtraField}
    (h : parseExtraLoop b us cs x = .ok fs) :
    ∃ blocks tail, Blocks x blocks tail ∧ tail.length ≤ 4 ∧
      getZip64ExtraField fs = (blocks.find? fun p => p.1 == 1).map fun p => zip64FieldFromBytes ID_ZIP64 p.2 us cs := by
  induction hn : x.length using Nat.strongRecOn generalizing x fs with
  | _ n ih =>
  unfold parseExtraLoop at h
  split at h
  · rename_i h4
    have hid := fromLe16_slice x 0 (by omega)
    have hsz := fromLe16_slice x 2 (by omega)
    simp only [Nat.zero_add, Nat.reduceAdd] at hid hsz
    simp only [] at h
    split at h
    · cases hq : extraRemaining b x.length (fromLe16 (slice x 2 4)).toNat with
      | error e => rw [hq] at h; cases h
      | ok r => rw [hq] at h; cases h
    · rename_i hfit
      have hslice : slice x 4 (4 + (fromLe16 (slice x 2 4)).toNat) = (x.drop 4).take (fieldAt x 2 2) := by
        rw [hsz, slice]; congr 1; omega
      rw [hslice] at h
      cases hf : extraFieldFromBytes (fromLe16 (slice x 0 2)) (fromLe16 (slice x 2 4)) ((x.drop 4).take (fieldAt x 2 2)) us cs with
      | error e => rw [hf] at h; cases h
      | ok f =>
        rw [hf] at h
        simp only [res_ok_bind] at h
        cases hl : parseExtraLoop b us cs (x.drop (4 + (fromLe16 (slice x 2 4)).toNat)) with
        | error e => rw [hl] at h; cases h
        | ok fs' =>
          rw [hl] at h
          simp only [res_ok_bind] at h
          cases h
          obtain ⟨bl, tail, h1, h2, h3⟩ := ih _ (by simp; omega) hl rfl
          rw [hsz] at h1
          refine ⟨_, tail, Blocks.cons x bl tail (by omega) h1, h2, ?_⟩
          rw [List.find?_cons]
          by_cases h1 : fromLe16 (slice x 0 2) = ID_ZIP64
          · unfold extraFieldFromBytes at hf
            rw [if_pos h1, h1] at hf
            cases hf
            rw [← hid, h1]
            rfl
          · have hne : (fieldAt x 0 2 == 1) = false := by
              rw [← hid, beq_eq_false_iff_ne]
              intro hq
              exact h1 (UInt16.toNat_inj.1 hq)
            simp only [hne]
            rw [← h3]
            unfold extraFieldFromBytes at hf
            rw [if_neg h1] at hf
            split at hf
            · cases hq : infoZipFromBytes .infoZipUnicodeCommentFieldIncomplete (fromLe16 (slice x 2 4))
                ((x.drop 4).take (fieldAt x 2 2)) with
              | error e => rw [hq] at hf; cases hf
              | ok y => rw [hq] at hf; cases hf; rfl
            · split at hf
              · cases hq : infoZipFromBytes .infoZipUnicodePathFieldIncomplete (fromLe16 (slice x 2 4))
                  ((x.drop 4).take (fieldAt x 2 2)) with
                | error e => rw [hq] at hf; cases hf
                | ok y => rw [hq] at hf; cases hf; rfl
              · cases hf; rfl
  · cases h
    exact ⟨[], x, Blocks.nil x, by omega, rfl⟩

/-- The values chosen, in terms of the content of the ZIP64 block. -/
theorem values_of_content (us cs off : UInt32) (o : Option (Nat × Bytes)) :
    let z := o.map fun p => zip64FieldFromBytes ID_ZIP64 p.2 us cs
    let content := (o.map Prod.snd).getD []
    (getCombinedSizes us cs z).1.toNat = trueValue us.toNat content 0 ∧
      (getCombinedSizes us cs z).2.toNat = trueValue cs.toNat content (room us.toNat) ∧
      (selectOffset off z).toNat = trueValue off.toNat content (room us.toNat + room cs.toNat) := by
  have key : ∀ w : UInt32, w = 0xFFFFFFFF ↔ w.toNat = 0xFFFFFFFF := fun w => by
    rw [← UInt32.toNat_inj]; rfl
  cases o with
  | none =>
    simp only [Option.map_none, Option.getD_none, getCombinedSizes, selectOffset, trueValue, UInt32.toNat_toUInt64,
      List.length_nil]
    refine ⟨?_, ?_, ?_⟩ <;> rw [if_neg (by omega)]
  | some p =>
    obtain ⟨h1, h2, h3⟩ := C07_zip64_values p.2 us cs off [] [] (fun _ h => by cases h)
    simp only [List.nil_append, getZip64ExtraField, key] at h1 h2 h3
    simp only [Option.map_some, Option.getD_some]
    refine ⟨h1.trans ?_, h2.trans ?_, h3.trans ?_⟩
    · rw [trueValue]
    · unfold trueValue room
      by_cases hu : us.toNat = 0xFFFFFFFF <;> by_cases l8 : 8 ≤ p.2.length <;> simp only [hu, l8, if_true, if_false, and_true, and_false]
      all_goals first | rfl | rw [if_neg (by omega)]
    · unfold trueValue room
      by_cases hu : us.toNat = 0xFFFFFFFF <;> by_cases hc : cs.toNat = 0xFFFFFFFF <;>
        by_cases l8 : 8 ≤ p.2.length <;> by_cases l16 : 16 ≤ p.2.length <;>
        simp only [hu, hc, l8, l16, if_true, if_false, and_true, and_false, Nat.zero_add, Nat.add_zero, Nat.reduceAdd]
      all_goals first | rfl | rw [if_neg (by omega)]

theorem cdRecord_ok {b : Build} {s s' : RState} {e : StoredZipEntry} (h : cdRecord b s = (.ok e, s')) :
    RecordAt s.data s.pos e ∧ s'.data = s.data ∧
      (s'.pos = s.pos + recordLength s.data s.pos ∨
        (s.data.length ≤ s'.pos ∧ s.data.length ≤ s.pos + recordLength s.data s.pos)) := by
  unfold cdRecord at h
  replace h := bind_ok_iff.1 h
  obtain ⟨_, s1, h1, h⟩ := h
  obtain ⟨a1, a2, a3⟩ := assertSignature_ok h1
  replace h := bind_ok_iff.1 h
  obtain ⟨hd, s2, h2, h⟩ := h
  obtain ⟨hb, s2', h2', h2''⟩ := bind_ok_iff.1 h2
  obtain ⟨b1, b2, b3, b4⟩ := readExact_ok h2'
  simp only [pure_def, Prod.mk.injEq, Except.ok.injEq] at h2''
  obtain ⟨rfl, rfl⟩ := h2''
  simp only [] at h
  replace h := bind_ok_iff.1 h
  obtain ⟨fb, s3, h3, h⟩ := h
  obtain ⟨c1, c2, c3⟩ := readBytes_ok h3
  replace h := bind_ok_iff.1 h
  obtain ⟨cm, s4, h4, h⟩ := h
  obtain ⟨d1, rfl⟩ := lift_ok h4
  replace h := bind_ok_iff.1 h
  obtain ⟨xf, s5, h5, h⟩ := h
  obtain ⟨e1, e2, e3⟩ := readBytes_ok h5
  replace h := bind_ok_iff.1 h
  obtain ⟨xs, s6, h6, h⟩ := h
  obtain ⟨f1, rfl⟩ := lift_ok h6
  replace h := bind_ok_iff.1 h
  obtain ⟨cb, s7, h7, h⟩ := h
  obtain ⟨g1, g2, g3⟩ := readBytes_ok h7
  simp only [pure_def, Prod.mk.injEq, Except.ok.injEq] at h
  obtain ⟨he, rfl⟩ := h
  rw [a2, a3] at b1
  rw [b3, b4, a2, a3] at c1
  rw [b4, a3] at c3
  rw [b3, a2] at c2
  rw [c2] at e1 e2
  rw [e2] at g1 g2
  have r16 := fun i h => read16 (data := s.data) (pos := s.pos + 4) b1 b2 i h
  have r32 := fun i h => read32 (data := s.data) (pos := s.pos + 4) b1 b2 i h
  have hlen : s.pos + 46 ≤ s.data.length := by
    have := congrArg List.length b1
    rw [List.length_take, List.length_drop, b2] at this
    omega
  have hn : (CentralDirectoryRecord.ofBytes hb).fileNameLength.toNat = fieldAt s.data (s.pos + 28) 2 := r16 24 (by omega)
  have hx : (CentralDirectoryRecord.ofBytes hb).extraFieldLength.toNat = fieldAt s.data (s.pos + 30) 2 := r16 26 (by omega)
  have hc : (CentralDirectoryRecord.ofBytes hb).fileCommentLength.toNat = fieldAt s.data (s.pos + 32) 2 := r16 28 (by omega)
  rw [hn] at c1
  rw [hx] at e1
  rw [hc] at g1
  have w1 := window_step (data := s.data) (p := s.pos + 4 + 42) (q := s.pos + 46) (n := fieldAt s.data (s.pos + 28) 2)
    (Or.inl (by omega))
  rw [← c1, ← c3] at w1
  have w2 := window_step (n := fieldAt s.data (s.pos + 30) 2) w1.2
  rw [← e1, ← e3] at w2
  have w3 := window_step (n := fieldAt s.data (s.pos + 32) 2) w2.2
  rw [← g1, ← g3] at w3
  refine ⟨?_, g2, ?_⟩
  · subst he
    constructor
    · exact hlen
    · exact a1
    · have := compression_ok d1
      rw [show (CentralDirectoryRecord.ofBytes hb).compression.toNat = fieldAt s.data (s.pos + 10) 2 from r16 6 (by omega)] at this
      exact this
    · simp only []
      rw [show (CentralDirectoryRecord.ofBytes hb).flags = GeneralPurposeFlag.ofU16 (fromLe16 (slice hb 4 6)) from rfl,
        flags_ofU16]
      simp only []
      rw [show (fromLe16 (slice hb 4 6)).toNat = fieldAt s.data (s.pos + 8) 2 from r16 4 (by omega)]
    · exact r16 8 (by omega)
    · exact r16 10 (by omega)
    · exact r32 12 (by omega)
    · exact r16 32 (by omega)
    · exact r32 34 (by omega)
    · simp only []
      rw [basic_filename, w1.1]
    · rcases parse_any b _ _ xf with ⟨fs, rs, tail, p1, p2, p3, p4⟩ | ⟨er, p1⟩ | ⟨p1, _⟩
      · rw [parseExtraFields] at f1
        rw [f1] at p1
        cases p1
        rw [w2.1] at p2
        exact ⟨rs, tail, p2, p3, p4⟩
      · rw [parseExtraFields] at f1
        rw [f1] at p1
        cases p1
      · rw [parseExtraFields] at f1
        rw [f1] at p1
        cases p1
    · simp only []
      rw [basic_comment, w3.1]
    · intro hz
      simp only [getZip64_none hz, getCombinedSizes, selectOffset, UInt32.toNat_toUInt64]
      exact ⟨r32 16 (by omega), r32 20 (by omega), r32 38 (by omega)⟩
    · intro pre f post hz hpre
      simp only at hz
      simp only [hz, getZip64_first hpre, getCombinedSizes, selectOffset]
      have q1 : (CentralDirectoryRecord.ofBytes hb).compressedSize.toNat = fieldAt s.data (s.pos + 20) 4 := r32 16 (by omega)
      have q2 : (CentralDirectoryRecord.ofBytes hb).uncompressedSize.toNat = fieldAt s.data (s.pos + 24) 4 := r32 20 (by omega)
      have q3 : (CentralDirectoryRecord.ofBytes hb).lhOffset.toNat = fieldAt s.data (s.pos + 42) 4 := r32 38 (by omega)
      have q4 : ((CentralDirectoryRecord.ofBytes hb).lhOffset = NON_ZIP64_MAX_SIZE) ↔
          fieldAt s.data (s.pos + 42) 4 = 2 ^ 32 - 1 := by
        rw [← q3, ← UInt32.toNat_inj, show NON_ZIP64_MAX_SIZE.toNat = 2 ^ 32 - 1 by decide]
      refine ⟨?_, ?_, ?_⟩
      · rw [← q1]
        cases f.compressedSize
        · exact UInt32.toNat_toUInt64 _
        · rfl
      · rw [← q2]
        cases f.uncompressedSize
        · exact UInt32.toNat_toUInt64 _
        · rfl
      · by_cases hm : (CentralDirectoryRecord.ofBytes hb).lhOffset = NON_ZIP64_MAX_SIZE
        · rw [if_pos hm, if_pos (q4.1 hm), ← q3]
          cases f.relativeHeaderOffset
          · exact UInt32.toNat_toUInt64 _
          · rfl
        · rw [if_neg hm, if_neg (fun h => hm (q4.2 h)), ← q3]
          exact UInt32.toNat_toUInt64 _
    · rw [parseExtraFields] at f1
      obtain ⟨bl, tail, p1, p2, p3⟩ := parse_content f1
      rw [w2.1] at p1
      obtain ⟨v1, v2, v3⟩ := values_of_content (CentralDirectoryRecord.ofBytes hb).uncompressedSize
        (CentralDirectoryRecord.ofBytes hb).compressedSize (CentralDirectoryRecord.ofBytes hb).lhOffset
        (bl.find? fun p => p.1 == 1)
      rw [← p3] at v1 v2 v3
      have q1 : (CentralDirectoryRecord.ofBytes hb).compressedSize.toNat = fieldAt s.data (s.pos + 20) 4 := r32 16 (by omega)
      have q2 : (CentralDirectoryRecord.ofBytes hb).uncompressedSize.toNat = fieldAt s.data (s.pos + 24) 4 := r32 20 (by omega)
      have q3 : (CentralDirectoryRecord.ofBytes hb).lhOffset.toNat = fieldAt s.data (s.pos + 42) 4 := r32 38 (by omega)
      rw [q1, q2] at v3
      rw [q1, q2] at v2
      rw [q2] at v1
      rw [q3] at v3
      exact ⟨bl, tail, p1, p2, v1, v2, v3⟩
    · simp only [SIGNATURE_LENGTH, LFH_LENGTH, hn, hx]
      omega
  · rcases w3.2 with h | ⟨h, h'⟩
    · left
      rw [h, recordLength]
      omega
    · right
      refine ⟨h, ?_⟩
      rw [recordLength]
      omega

theorem cdLoop_ok {b : Build} (n : Nat) : ∀ {s s' : RState} {es : List StoredZipEntry}, cdLoop b n s = (.ok es, s') →
    es.length = n ∧ Records s.data s.pos es := by
  induction n with
  | zero =>
    intro s s' es h
    simp only [cdLoop, pure_def, Prod.mk.injEq, Except.ok.injEq] at h
    rw [← h.1]
    exact ⟨rfl, Records.nil _⟩
  | succ n ih =>
    intro s s' es h
    unfold cdLoop at h
    replace h := bind_ok_iff.1 h
    obtain ⟨e, s1, h1, h⟩ := h
    replace h := bind_ok_iff.1 h
    obtain ⟨es', s2, h2, h⟩ := h
    simp only [pure_def, Prod.mk.injEq, Except.ok.injEq] at h
    rw [← h.1]
    obtain ⟨r1, r2, r3⟩ := cdRecord_ok h1
    obtain ⟨i1, i2⟩ := ih h2
    rw [r2] at i2
    refine ⟨by simp [i1], Records.cons _ _ _ r1 ?_⟩
    rcases r3 with h | ⟨h, h'⟩
    · rw [h] at i2; exact i2
    · cases i2 with
      | nil => exact Records.nil _
      | cons _ e' es'' hr hs =>
        have := hr.fits
        omega

/-- The ZIP64-combined record a successful `readCombined` returns, in terms of the bytes. -/
theorem readCombined_ok {b : Build} {j : Nat} {e : EndOfCentralDirectoryHeader} {s s' : RState} {r : CombinedRecord}
    {z : Bool} (h : readCombined b (j + 4) e s = (.ok (r, z), s')) (hfit : HasLocator s.data j → zip64End s.data j + 4 < 2 ^ 64)
    (hj : j + 22 ≤ s.data.length)
    (he : e = EndOfCentralDirectoryHeader.ofBytes ((s.data.drop (j + 4)).take 18)) :
    s'.data = s.data ∧ (z = true ↔ HasLocator s.data j) ∧ r.diskNumber.toNat = declaredDisk s.data j ∧
    r.diskNumberStartOfCd.toNat = declaredStartDisk s.data j ∧ r.numEntriesOnDisk.toNat = declaredEntriesOnDisk s.data j ∧
    r.numEntries.toNat = declaredEntries s.data j ∧ r.offsetOfStart.toNat = declaredOffset s.data j := by
  have hb : ((s.data.drop (j + 4)).take 18).length = 18 := by rw [List.length_take, List.length_drop]; omega
  have r16 := fun i h => read16 (data := s.data) (pos := j + 4) rfl hb i h
  have r32 := fun i h => read32 (data := s.data) (pos := j + 4) rfl hb i h
  have v1 : e.diskNum.toNat = fieldAt s.data (j + 4) 2 := by rw [he]; exact r16 0 (by omega)
  have v2 : e.startCentDirDisk.toNat = fieldAt s.data (j + 6) 2 := by rw [he]; exact r16 2 (by omega)
  have v3 : e.numOfEntriesDisk.toNat = fieldAt s.data (j + 8) 2 := by rw [he]; exact r16 4 (by omega)
  have v4 : e.numOfEntries.toNat = fieldAt s.data (j + 10) 2 := by rw [he]; exact r16 6 (by omega)
  have v5 : e.centDirOffset.toNat = fieldAt s.data (j + 16) 4 := by rw [he]; exact r32 12 (by omega)
  have plain : ¬ HasLocator s.data j → r = CombinedRecord.ofEocdr e →
      r.diskNumber.toNat = declaredDisk s.data j ∧
      r.diskNumberStartOfCd.toNat = declaredStartDisk s.data j ∧ r.numEntriesOnDisk.toNat = declaredEntriesOnDisk s.data j ∧
      r.numEntries.toNat = declaredEntries s.data j ∧ r.offsetOfStart.toNat = declaredOffset s.data j := by
    intro hl hr
    subst hr
    simp only [declaredDisk, declaredStartDisk, declaredEntriesOnDisk, declaredEntries, declaredOffset, declared, hl,
      false_and, if_false, CombinedRecord.ofEocdr, UInt16.toNat_toUInt32, UInt16.toNat_toUInt64, UInt32.toNat_toUInt64]
    exact ⟨v1, v2, v3, v4, v5⟩
  unfold readCombined at h
  split at h
  · rename_i hlt
    simp only [pure_def, Prod.mk.injEq, Except.ok.injEq] at h
    obtain ⟨⟨rfl, rfl⟩, rfl⟩ := h
    have hno : ¬ HasLocator s.data j := by
      rintro ⟨h20, _⟩
      simp only [ZIP64_EOCDL_LENGTH, SIGNATURE_LENGTH] at hlt
      omega
    exact ⟨rfl, by simp [hno], plain hno rfl⟩
  · rename_i hge
    simp only [ZIP64_EOCDL_LENGTH, SIGNATURE_LENGTH] at hge h
    replace h := bind_ok_iff.1 h
    obtain ⟨_, s1, h1, h⟩ := h
    obtain ⟨_, a2, a3⟩ := seekTo_ok h1
    replace h := bind_ok_iff.1 h
    obtain ⟨l, s2, h2, h⟩ := h
    unfold Zip64EndOfCentralDirectoryLocator.tryFromReader at h2
    replace h2 := bind_ok_iff.1 h2
    obtain ⟨sg, s3, h3, h2⟩ := h2
    obtain ⟨b1, b2, b3, b4⟩ := readExact_ok h3
    rw [a2, a3] at b1
    have hsig : (fromLe32 sg = ZIP64_EOCDL_SIGNATURE) ↔ HasLocator s.data j := by
      rw [fromLe32_eq_iff b2, show le32 ZIP64_EOCDL_SIGNATURE = sigLocator by decide]
      constructor
      · intro hs
        refine ⟨by omega, ?_⟩
        unfold OccursAt
        rw [← hs, b2, b1, show j + 4 - (20 + 4) = j - 20 by omega]
      · rintro ⟨_, hs⟩
        unfold OccursAt at hs
        rw [← hs, b1, show j + 4 - (20 + 4) = j - 20 by omega]
        rfl
    split at h2
    · rename_i hne
      simp only [pure_def, Prod.mk.injEq, Except.ok.injEq] at h2
      obtain ⟨rfl, rfl⟩ := h2
      simp only [pure_def, Prod.mk.injEq, Except.ok.injEq] at h
      obtain ⟨⟨rfl, rfl⟩, rfl⟩ := h
      have hno : ¬ HasLocator s.data j := fun hl => hne (hsig.2 hl)
      exact ⟨by rw [b3, a2], by simp [hno], plain hno rfl⟩
    · rename_i heq
      have hl : HasLocator s.data j := hsig.1 (Decidable.not_not.1 heq)
      replace h2 := bind_ok_iff.1 h2
      obtain ⟨lb, s4, h4, h2⟩ := h2
      obtain ⟨c1, c2, c3, c4⟩ := readExact_ok h4
      rw [b3, b4, a2, a3] at c1
      simp only [pure_def, Prod.mk.injEq, Except.ok.injEq] at h2
      obtain ⟨rfl, rfl⟩ := h2
      simp only at h
      replace h := bind_ok_iff.1 h
      obtain ⟨tgt, s5, h5, h⟩ := h
      obtain ⟨d1, rfl⟩ := lift_ok h5
      have hrel : (Zip64EndOfCentralDirectoryLocator.ofBytes lb).relativeOffset.toNat = zip64End s.data j := by
        have := read64 (data := s.data) c1 c2 4 (by omega)
        rw [show j + 4 - (20 + 4) + 4 + 4 = j - 20 + 8 by omega] at this
        exact this
      rw [hrel, addU64, if_pos (by exact hfit hl)] at d1
      simp only [Except.ok.injEq] at d1
      replace h := bind_ok_iff.1 h
      obtain ⟨_, s6, h6, h⟩ := h
      obtain ⟨_, f2, f3⟩ := seekTo_ok h6
      replace h := bind_ok_iff.1 h
      obtain ⟨zr, s7, h7, h⟩ := h
      replace h7 := bind_ok_iff.1 h7
      obtain ⟨zb, s8, h8, h7⟩ := h7
      obtain ⟨g1, g2, g3, g4⟩ := readExact_ok h8
      simp only [pure_def, Prod.mk.injEq, Except.ok.injEq] at h7
      obtain ⟨rfl, rfl⟩ := h7
      simp only [pure_def, Prod.mk.injEq, Except.ok.injEq] at h
      obtain ⟨⟨rfl, rfl⟩, rfl⟩ := h
      rw [f2, f3, c3, b3, a2, ← d1] at g1
      have z32 := fun i h => read32 (data := s.data) g1 g2 i h
      have z64 := fun i h => read64 (data := s.data) g1 g2 i h
      refine ⟨by rw [g3, f2, c3, b3, a2], by simp [hl], ?_⟩
      have sat16 : ∀ v : UInt16, v = 0xFFFF ↔ v.toNat = 256 ^ 2 - 1 := by
        intro v
        rw [← UInt16.toNat_inj]; rfl
      have sat32 : ∀ v : UInt32, v = 0xFFFFFFFF ↔ v.toNat = 256 ^ 4 - 1 := by
        intro v
        rw [← UInt32.toNat_inj]; rfl
      simp only [declaredDisk, declaredStartDisk, declaredEntriesOnDisk, declaredEntries, declaredOffset, declared, hl,
        true_and, CombinedRecord.combine, CombinedRecord.ofEocdr, sat16, sat32, v1, v2, v3, v4, v5]
      refine ⟨?_, ?_, ?_, ?_, ?_⟩
      · split
        · exact z32 12 (by omega)
        · rw [UInt16.toNat_toUInt32, v1]
      · split
        · exact z32 16 (by omega)
        · rw [UInt16.toNat_toUInt32, v2]
      · split
        · exact z64 20 (by omega)
        · rw [UInt16.toNat_toUInt64, v3]
      · split
        · exact z64 28 (by omega)
        · rw [UInt16.toNat_toUInt64, v4]
      · split
        · exact z64 44 (by omega)
        · rw [UInt32.toNat_toUInt64, v5]

/-- A successful opening, in terms of the bytes. -/
theorem openFile_ok {b : Build} {s s' : RState} {f : ZipFile} (h : openFile b s = (.ok f, s'))
    (hfit : ∀ j, LastEnd s.data j → HasLocator s.data j → zip64End s.data j + 4 < 2 ^ 64) :
    ∃ j, LastEnd s.data j ∧ j + 22 ≤ s.data.length ∧ declaredDisk s.data j = declaredStartDisk s.data j ∧
      declaredEntries s.data j = declaredEntriesOnDisk s.data j ∧ f.entries.length = declaredEntries s.data j ∧
      (f.zip64 = true ↔ HasLocator s.data j) ∧ Records s.data (declaredOffset s.data j) f.entries ∧
      f.comment = ZipString.new (window s.data (j + 22) (fieldAt s.data (j + 20) 2)) .utf8 := by
  unfold openFile at h
  replace h := bind_ok_iff.1 h
  obtain ⟨off, s1, h1, h⟩ := h
  have k1 := (locateEocdr_keeps s).1
  rw [h1] at k1
  simp only at k1
  rcases locateEocdr_spec s s1 _ h1 with ⟨j, hr, ho, hl⟩ | ⟨hr, _⟩ | hi
  · simp only [Except.ok.injEq] at hr
    subst hr
    have hj : LastEnd s.data j := ⟨ho, hl⟩
    replace h := bind_ok_iff.1 h
    obtain ⟨_, s2, h2, h⟩ := h
    obtain ⟨_, a2, a3⟩ := seekTo_ok h2
    replace h := bind_ok_iff.1 h
    obtain ⟨eo, s3, h3, h⟩ := h
    replace h3 := bind_ok_iff.1 h3
    obtain ⟨eb, s4, h4, h3⟩ := h3
    obtain ⟨b1, b2, b3, b4⟩ := readExact_ok h4
    simp only [pure_def, Prod.mk.injEq, Except.ok.injEq] at h3
    obtain ⟨rfl, rfl⟩ := h3
    rw [a2, a3, k1] at b1
    replace h := bind_ok_iff.1 h
    obtain ⟨cm, s5, h5, h⟩ := h
    replace h5 := bind_ok_iff.1 h5
    obtain ⟨cb, s6, h6, h5⟩ := h5
    obtain ⟨c1, c2, c3⟩ := readBytes_ok h6
    simp only [pure_def, Prod.mk.injEq, Except.ok.injEq] at h5
    obtain ⟨rfl, rfl⟩ := h5
    have hd6 : s6.data = s.data := by rw [c2, b3, a2, k1]
    replace h := bind_ok_iff.1 h
    obtain ⟨⟨r, z⟩, s7, h7, h⟩ := h
    have hlen : j + 22 ≤ s.data.length := by
      have := congrArg List.length b1
      rw [List.length_take, List.length_drop, b2] at this
      omega
    have hc := readCombined_ok h7 (by rw [hd6]; exact hfit j hj) (by rw [hd6]; exact hlen) (by rw [hd6, b1])
    rw [hd6] at hc
    obtain ⟨g1, g2, g3, g4, g5, g6, g7⟩ := hc
    simp only at h
    split at h
    · simp at h
    · rename_i hok
      replace h := bind_ok_iff.1 h
      obtain ⟨_, s8, h8, h⟩ := h
      obtain ⟨_, d2, d3⟩ := seekTo_ok h8
      replace h := bind_ok_iff.1 h
      obtain ⟨es, s9, h9, h⟩ := h
      simp only [pure_def, Prod.mk.injEq, Except.ok.injEq] at h
      obtain ⟨rfl, rfl⟩ := h
      unfold cd at h9
      split at h9
      · simp at h9
      · obtain ⟨i1, i2⟩ := cdLoop_ok _ h9
        rw [d2, d3, g1, g7] at i2
        simp only [not_or, Decidable.not_not] at hok
        refine ⟨j, hj, hlen, ?_, ?_, by rw [i1, g6], g2, i2, ?_⟩
        · rw [← g3, ← g4, hok.1]
        · rw [← g6, ← g5, hok.2]
        · rw [c1, b3, b4, a2, a3, k1]
          have := read16 (data := s.data) b1 b2 16 (by omega)
          rw [show (EndOfCentralDirectoryHeader.ofBytes eb).fileCommLength.toNat = _ from this]
          rfl
  · cases hr
  · exact absurd hi not_interrupted_ok

end AsyncZip
