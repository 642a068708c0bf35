import Verif.Spec.Utf8
import Verif.Model.Str
/-!
# The UTF-8 validator accepts exactly the encodings of text
-/

namespace AsyncZip
open Spec

theorem isUtf8_nil : IsUtf8 [] := ⟨[], by simp, rfl⟩

theorem isUtf8_cons (v : Nat) (hv : IsScalar v) (r : Bytes) (h : IsUtf8 r) : IsUtf8 (encodeScalar v ++ r) := by
  obtain ⟨t, h1, h2⟩ := h
  exact ⟨v :: t, by simpa [hv] using h1, by simp [h2]⟩

theorem u8_ofNat_eq {b : UInt8} {n : Nat} (h : b.toNat = n) : UInt8.ofNat n = b := by
  rw [← h]; simp

/-- Soundness: what the validator accepts is an encoding. -/
theorem isUtf8_of_valid (b : Bytes) : utf8Valid b = true → IsUtf8 b := by
  induction b using utf8Valid.induct with
  | case1 => intro _; exact isUtf8_nil
  | case2 b0 rest h ih =>
    intro hv
    rw [utf8Valid.eq_def] at hv
    simp only [h, if_true] at hv
    have hlt : b0.toNat < 0x80 := UInt8.lt_iff_toNat_lt.1 h
    have := isUtf8_cons b0.toNat (Or.inl (by omega)) rest (ih hv)
    unfold encodeScalar at this
    rw [if_pos hlt, u8_ofNat_eq rfl] at this
    exact this
  | case3 b0 h1 h2 b1 r ih =>
    intro hv
    rw [utf8Valid.eq_def] at hv
    simp only [h1, h2, if_true, if_false, Bool.and_eq_true, isCont, decide_eq_true_eq] at hv
    simp only [Bool.and_eq_true, decide_eq_true_eq] at h2
    simp only [UInt8.le_iff_toNat_le, UInt8.reduceToNat] at h2 hv
    have := isUtf8_cons ((b0.toNat - 0xC0) * 64 + (b1.toNat - 0x80)) (Or.inl (by omega)) r (ih hv.2)
    unfold encodeScalar at this
    rw [if_neg (by omega), if_pos (by omega), u8_ofNat_eq (b := b0) (by omega), u8_ofNat_eq (b := b1) (by omega)] at this
    exact this
  | case4 b0 h1 h2 =>
    intro hv
    rw [utf8Valid.eq_def] at hv
    simp [h1, h2] at hv
  | case5 b0 h1 h2 h3 b1 b2 r ih =>
    intro hv
    rw [utf8Valid.eq_def] at hv
    simp only [h1, h2, h3, Bool.false_eq_true, if_true, if_false, Bool.and_eq_true, isCont, decide_eq_true_eq] at hv
    simp only [Bool.and_eq_true, decide_eq_true_eq, beq_iff_eq] at h3 hv
    obtain ⟨⟨hb1, hb2⟩, hr⟩ := hv
    simp only [UInt8.le_iff_toNat_le, UInt8.reduceToNat] at h3 hb2
    have hb1' : 0x80 ≤ b1.toNat ∧ b1.toNat ≤ 0xBF ∧ (b0.toNat = 0xE0 → 0xA0 ≤ b1.toNat)
        ∧ (b0.toNat = 0xED → b1.toNat ≤ 0x9F) := by
      have e0 : b0 = 0xE0 ↔ b0.toNat = 0xE0 := by rw [← UInt8.toNat_inj]; rfl
      have e1 : b0 = 0xED ↔ b0.toNat = 0xED := by rw [← UInt8.toNat_inj]; rfl
      simp only [e0, e1] at hb1
      repeat' split at hb1
      all_goals
        simp only [Bool.and_eq_true, decide_eq_true_eq, UInt8.le_iff_toNat_le, UInt8.reduceToNat] at hb1
        omega
    have := isUtf8_cons ((b0.toNat - 0xE0) * 4096 + (b1.toNat - 0x80) * 64 + (b2.toNat - 0x80))
      (by unfold IsScalar; omega) r (ih hr)
    unfold encodeScalar at this
    rw [if_neg (by omega), if_neg (by omega), if_pos (by omega), u8_ofNat_eq (b := b0) (by omega),
      u8_ofNat_eq (b := b1) (by omega), u8_ofNat_eq (b := b2) (by omega)] at this
    exact this
  | case6 b0 rest h1 h2 h3 h4 =>
    intro hv
    rw [utf8Valid.eq_def] at hv
    simp only [h1, h2, h3, Bool.false_eq_true, if_true, if_false] at hv
  | case7 b0 h1 h2 h3 h4 b1 b2 b3 r ih =>
    intro hv
    rw [utf8Valid.eq_def] at hv
    simp only [h1, h2, h3, h4, Bool.false_eq_true, if_true, if_false, Bool.and_eq_true, isCont, decide_eq_true_eq] at hv
    simp only [Bool.and_eq_true, decide_eq_true_eq, beq_iff_eq] at h4 hv
    obtain ⟨⟨⟨hb1, hb2⟩, hb3⟩, hr⟩ := hv
    simp only [UInt8.le_iff_toNat_le, UInt8.reduceToNat] at h4 hb2 hb3
    have hb1' : 0x80 ≤ b1.toNat ∧ b1.toNat ≤ 0xBF ∧ (b0.toNat = 0xF0 → 0x90 ≤ b1.toNat)
        ∧ (b0.toNat = 0xF4 → b1.toNat ≤ 0x8F) := by
      have e0 : b0 = 0xF0 ↔ b0.toNat = 0xF0 := by rw [← UInt8.toNat_inj]; rfl
      have e1 : b0 = 0xF4 ↔ b0.toNat = 0xF4 := by rw [← UInt8.toNat_inj]; rfl
      simp only [e0, e1] at hb1
      repeat' split at hb1
      all_goals
        simp only [Bool.and_eq_true, decide_eq_true_eq, UInt8.le_iff_toNat_le, UInt8.reduceToNat] at hb1
        omega
    have := isUtf8_cons ((b0.toNat - 0xF0) * 262144 + (b1.toNat - 0x80) * 4096 + (b2.toNat - 0x80) * 64
      + (b3.toNat - 0x80)) (by unfold IsScalar; omega) r (ih hr)
    unfold encodeScalar at this
    rw [if_neg (by omega), if_neg (by omega), if_neg (by omega), u8_ofNat_eq (b := b0) (by omega),
      u8_ofNat_eq (b := b1) (by omega), u8_ofNat_eq (b := b2) (by omega), u8_ofNat_eq (b := b3) (by omega)] at this
    exact this
  | case8 b0 rest h1 h2 h3 h4 h5 =>
    intro hv
    rw [utf8Valid.eq_def] at hv
    simp only [h1, h2, h3, h4, Bool.false_eq_true, if_true, if_false] at hv
  | case9 b0 rest h1 h2 h3 h4 =>
    intro hv
    rw [utf8Valid.eq_def] at hv
    simp [h1, h2, h3, h4] at hv

theorem utf8Valid_encode (v : Nat) (hv : IsScalar v) (r : Bytes) : utf8Valid (encodeScalar v ++ r) = utf8Valid r := by
  have tn : ∀ n, n < 256 → (UInt8.ofNat n).toNat = n := by
    intro n hn; rw [UInt8.toNat_ofNat']; omega
  have beq : ∀ (n m : Nat), n < 256 → m < 256 → (UInt8.ofNat n == UInt8.ofNat m) = decide (n = m) := by
    intro n m hn hm
    rw [Bool.eq_iff_iff, beq_iff_eq, ← UInt8.toNat_inj, tn n hn, tn m hm, decide_eq_true_iff]
  unfold IsScalar at hv
  unfold encodeScalar
  split
  · rename_i h
    rw [List.singleton_append, utf8Valid.eq_def]
    simp only []
    rw [if_pos]
    rw [UInt8.lt_iff_toNat_lt, tn _ (by omega)]
    exact h
  · split
    · rename_i h1 h2
      rw [utf8Valid.eq_def]
      simp only [List.cons_append, List.nil_append, isCont, UInt8.lt_iff_toNat_lt, UInt8.le_iff_toNat_le,
        UInt8.reduceToNat]
      rw [tn _ (by omega), tn _ (by omega), if_neg (by omega), if_pos (by simp; omega)]
      have : (decide (128 ≤ 0x80 + v % 64) && decide (0x80 + v % 64 ≤ 191)) = true := by simp; omega
      rw [this, Bool.true_and]
    · split
      · rename_i h1 h2 h3
        rw [utf8Valid.eq_def]
        simp only [List.cons_append, List.nil_append, isCont, UInt8.lt_iff_toNat_lt, UInt8.le_iff_toNat_le,
          UInt8.reduceToNat]
        rw [tn _ (by omega), tn _ (by omega), tn _ (by omega), if_neg (by omega), if_neg (by simp; omega),
          if_pos (by simp; omega)]
        have e1 : (UInt8.ofNat (0xE0 + v / 4096) == 0xE0) = decide (v / 4096 = 0) := by
          rw [show (0xE0 : UInt8) = UInt8.ofNat 0xE0 from rfl, beq _ _ (by omega) (by omega)]
          congr 1; simp
        have e2 : (UInt8.ofNat (0xE0 + v / 4096) == 0xED) = decide (v / 4096 = 13) := by
          rw [show (0xED : UInt8) = UInt8.ofNat 0xED from rfl, beq _ _ (by omega) (by omega)]
          congr 1; simp; omega
        rw [e1, e2]
        have c2 : (decide (128 ≤ 0x80 + v % 64) && decide (0x80 + v % 64 ≤ 191)) = true := by simp; omega
        have c1 : (if decide (v / 4096 = 0) = true then
            decide (160 ≤ 0x80 + v / 64 % 64) && decide (0x80 + v / 64 % 64 ≤ 191)
          else if decide (v / 4096 = 13) = true then
            decide (128 ≤ 0x80 + v / 64 % 64) && decide (0x80 + v / 64 % 64 ≤ 159)
          else decide (128 ≤ 0x80 + v / 64 % 64) && decide (0x80 + v / 64 % 64 ≤ 191)) = true := by
          simp only [decide_eq_true_eq]
          split
          · simp; omega
          · split <;> (simp; omega)
        rw [c1, c2, Bool.true_and, Bool.true_and]
      · rename_i h1 h2 h3
        rw [utf8Valid.eq_def]
        simp only [List.cons_append, List.nil_append, isCont, UInt8.lt_iff_toNat_lt, UInt8.le_iff_toNat_le,
          UInt8.reduceToNat]
        rw [tn _ (by omega), tn _ (by omega), tn _ (by omega), tn _ (by omega), if_neg (by omega),
          if_neg (by simp; omega), if_neg (by simp; omega), if_pos (by simp; omega)]
        have e1 : (UInt8.ofNat (0xF0 + v / 262144) == 0xF0) = decide (v / 262144 = 0) := by
          rw [show (0xF0 : UInt8) = UInt8.ofNat 0xF0 from rfl, beq _ _ (by omega) (by omega)]
          congr 1; simp
        have e2 : (UInt8.ofNat (0xF0 + v / 262144) == 0xF4) = decide (v / 262144 = 4) := by
          rw [show (0xF4 : UInt8) = UInt8.ofNat 0xF4 from rfl, beq _ _ (by omega) (by omega)]
          congr 1; simp; omega
        rw [e1, e2]
        have c2 : (decide (128 ≤ 0x80 + v / 64 % 64) && decide (0x80 + v / 64 % 64 ≤ 191)) = true := by simp; omega
        have c3 : (decide (128 ≤ 0x80 + v % 64) && decide (0x80 + v % 64 ≤ 191)) = true := by simp; omega
        have c1 : (if decide (v / 262144 = 0) = true then
            decide (144 ≤ 0x80 + v / 4096 % 64) && decide (0x80 + v / 4096 % 64 ≤ 191)
          else if decide (v / 262144 = 4) = true then
            decide (128 ≤ 0x80 + v / 4096 % 64) && decide (0x80 + v / 4096 % 64 ≤ 143)
          else decide (128 ≤ 0x80 + v / 4096 % 64) && decide (0x80 + v / 4096 % 64 ≤ 191)) = true := by
          simp only [decide_eq_true_eq]
          split
          · simp; omega
          · split <;> (simp; omega)
        rw [c1, c2, c3, Bool.true_and, Bool.true_and, Bool.true_and]

/-- The validator decides UTF-8. -/
theorem utf8Valid_iff (b : Bytes) : utf8Valid b = true ↔ IsUtf8 b := by
  constructor
  · exact isUtf8_of_valid b
  · rintro ⟨t, h1, rfl⟩
    induction t with
    | nil => rfl
    | cons v t ih =>
      rw [List.flatMap_cons, utf8Valid_encode v (h1 v (by simp))]
      exact ih (fun w hw => h1 w (by simp [hw]))

/-- ASCII is UTF-8. -/
theorem utf8Valid_of_ascii (b : Bytes) (h : isAscii b = true) : utf8Valid b = true := by
  induction b with
  | nil => rfl
  | cons x b ih =>
    simp only [isAscii, List.all_cons, Bool.and_eq_true, decide_eq_true_eq] at h
    rw [utf8Valid.eq_def]
    simp only [h.1, if_true]
    exact ih h.2

end AsyncZip
