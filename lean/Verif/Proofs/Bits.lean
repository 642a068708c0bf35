import Verif.Model.Types
/-!
# Bit-field lemmas
-/

namespace AsyncZip

/-- Selecting a bit field with a mask, in arithmetic terms. -/
theorem field_of_mask (a k j : Nat) : (a &&& ((2 ^ j - 1) <<< k)) >>> k = a / 2 ^ k % 2 ^ j := by
  rw [Nat.shiftRight_and_distrib, Nat.shiftLeft_shiftRight, Nat.and_two_pow_sub_one_eq_mod, Nat.shiftRight_eq_div_pow]

/-- A bit field of an OR is the OR of the bit fields. -/
theorem field_or (a b k j : Nat) : (a ||| b) / 2 ^ k % 2 ^ j = (a / 2 ^ k % 2 ^ j) ||| (b / 2 ^ k % 2 ^ j) := by
  rw [← Nat.shiftRight_eq_div_pow, Nat.shiftRight_or_distrib, Nat.or_mod_two_pow, Nat.shiftRight_eq_div_pow,
    Nat.shiftRight_eq_div_pow]

/-- Placing a value in a bit field with a mask, in arithmetic terms. -/
theorem place_mask (m k j w : Nat) (h : j + k ≤ w) :
    ((m <<< k) % 2 ^ w) &&& ((2 ^ j - 1) <<< k) = (m % 2 ^ j) * 2 ^ k := by
  have hm : (2 ^ j - 1) <<< k < 2 ^ w := by
    rw [Nat.shiftLeft_eq]
    calc (2 ^ j - 1) * 2 ^ k < 2 ^ j * 2 ^ k := by
          apply Nat.mul_lt_mul_of_pos_right
          · have := Nat.two_pow_pos j; omega
          · exact Nat.two_pow_pos k
      _ = 2 ^ (j + k) := (Nat.pow_add ..).symm
      _ ≤ 2 ^ w := Nat.pow_le_pow_right (by decide) h
  rw [← Nat.and_two_pow_sub_one_eq_mod, Nat.and_assoc, Nat.and_comm (2 ^ w - 1), Nat.and_two_pow_sub_one_eq_mod,
    Nat.mod_eq_of_lt hm, ← Nat.shiftLeft_and_distrib, Nat.and_two_pow_sub_one_eq_mod, Nat.shiftLeft_eq]

namespace ZipDateTime

theorem year_eq (d : ZipDateTime) : d.year = d.date.toNat / 2 ^ 9 % 2 ^ 7 + 1980 := by
  have := d.date.toNat_lt
  have h := field_of_mask d.date.toNat 9 7
  rw [show ((2 : Nat) ^ 7 - 1) <<< 9 = 65024 from rfl] at h
  unfold year
  rw [UInt16.toNat_add, UInt16.toNat_shiftRight, UInt16.toNat_and]
  simp only [UInt16.reduceToNat, Nat.reduceMod, h]
  omega

theorem month_eq (d : ZipDateTime) : d.month = d.date.toNat / 2 ^ 5 % 2 ^ 4 := by
  have h := field_of_mask d.date.toNat 5 4
  rw [show ((2 : Nat) ^ 4 - 1) <<< 5 = 480 from rfl] at h
  unfold month
  rw [UInt16.toNat_shiftRight, UInt16.toNat_and]
  simp only [UInt16.reduceToNat, Nat.reduceMod, h]

theorem day_eq (d : ZipDateTime) : d.day = d.date.toNat / 2 ^ 0 % 2 ^ 5 := by
  have h := field_of_mask d.date.toNat 0 5
  rw [show ((2 : Nat) ^ 5 - 1) <<< 0 = 31 from rfl] at h
  unfold day
  rw [UInt16.toNat_and]
  simpa using h

theorem hour_eq (d : ZipDateTime) : d.hour = d.time.toNat / 2 ^ 11 % 2 ^ 5 := by
  have h := field_of_mask d.time.toNat 11 5
  rw [show ((2 : Nat) ^ 5 - 1) <<< 11 = 63488 from rfl] at h
  unfold hour
  rw [UInt16.toNat_shiftRight, UInt16.toNat_and]
  simp only [UInt16.reduceToNat, Nat.reduceMod, h]

theorem minute_eq (d : ZipDateTime) : d.minute = d.time.toNat / 2 ^ 5 % 2 ^ 6 := by
  have h := field_of_mask d.time.toNat 5 6
  rw [show ((2 : Nat) ^ 6 - 1) <<< 5 = 2016 from rfl] at h
  unfold minute
  rw [UInt16.toNat_shiftRight, UInt16.toNat_and]
  simp only [UInt16.reduceToNat, Nat.reduceMod, h]

theorem second_eq (d : ZipDateTime) : d.second = 2 * (d.time.toNat / 2 ^ 0 % 2 ^ 5) := by
  have h := field_of_mask d.time.toNat 0 5
  rw [show ((2 : Nat) ^ 5 - 1) <<< 0 = 31 from rfl] at h
  unfold second
  rw [UInt16.toNat_shiftLeft, UInt16.toNat_and]
  simp only [UInt16.reduceToNat, Nat.reduceMod, Nat.shiftLeft_eq]
  simp only [Nat.shiftRight_zero] at h
  rw [h]
  omega

theorem unwrapU16_ok (n : Nat) (h : n < 2 ^ 16) : unwrapU16 n = .ok (UInt16.ofNat n) := if_pos h

theorem withMonth_eq (d : ZipDateTime) (m : UInt32) :
    d.withMonth m = .ok { d with date := d.date ||| UInt16.ofNat (m.toNat % 2 ^ 4 * 2 ^ 5) } := by
  have h := place_mask m.toNat 5 4 32 (by decide)
  rw [show ((2 : Nat) ^ 4 - 1) <<< 5 = 480 from rfl] at h
  have e : ((m <<< 5) &&& 0x1E0).toNat = m.toNat % 2 ^ 4 * 2 ^ 5 := by
    rw [UInt32.toNat_and, UInt32.toNat_shiftLeft]
    simpa using h
  unfold withMonth
  rw [e, unwrapU16_ok _ (by omega)]
  rfl

theorem withDay_eq (d : ZipDateTime) (m : UInt32) :
    d.withDay m = .ok { d with date := d.date ||| UInt16.ofNat (m.toNat % 2 ^ 5 * 2 ^ 0) } := by
  have e : (m &&& 0x1F).toNat = m.toNat % 2 ^ 5 * 2 ^ 0 := by
    rw [UInt32.toNat_and, ← Nat.and_two_pow_sub_one_eq_mod]
    simp
  unfold withDay
  rw [e, unwrapU16_ok _ (by omega)]
  rfl

theorem withHour_eq (d : ZipDateTime) (m : UInt32) :
    d.withHour m = .ok { d with time := d.time ||| UInt16.ofNat (m.toNat % 2 ^ 5 * 2 ^ 11) } := by
  have h := place_mask m.toNat 11 5 32 (by decide)
  rw [show ((2 : Nat) ^ 5 - 1) <<< 11 = 63488 from rfl] at h
  have e : ((m <<< 11) &&& 0xF800).toNat = m.toNat % 2 ^ 5 * 2 ^ 11 := by
    rw [UInt32.toNat_and, UInt32.toNat_shiftLeft]
    simpa using h
  unfold withHour
  rw [e, unwrapU16_ok _ (by omega)]
  rfl

theorem withMinute_eq (d : ZipDateTime) (m : UInt32) :
    d.withMinute m = .ok { d with time := d.time ||| UInt16.ofNat (m.toNat % 2 ^ 6 * 2 ^ 5) } := by
  have h := place_mask m.toNat 5 6 32 (by decide)
  rw [show ((2 : Nat) ^ 6 - 1) <<< 5 = 2016 from rfl] at h
  have e : ((m <<< 5) &&& 0x7E0).toNat = m.toNat % 2 ^ 6 * 2 ^ 5 := by
    rw [UInt32.toNat_and, UInt32.toNat_shiftLeft]
    simpa using h
  unfold withMinute
  rw [e, unwrapU16_ok _ (by omega)]
  rfl

theorem withSecond_eq (d : ZipDateTime) (m : UInt32) :
    d.withSecond m = .ok { d with time := d.time ||| UInt16.ofNat (m.toNat / 2 % 2 ^ 5 * 2 ^ 0) } := by
  have e : ((m >>> 1) &&& 0x1F).toNat = m.toNat / 2 % 2 ^ 5 * 2 ^ 0 := by
    rw [UInt32.toNat_and, UInt32.toNat_shiftRight, ← Nat.and_two_pow_sub_one_eq_mod]
    simp [Nat.shiftRight_eq_div_pow]
  unfold withSecond
  rw [e, unwrapU16_ok _ (by omega)]
  rfl

/-- The year setter succeeds unless the subtraction overflows in a checked build, and stores the year modulo 128. -/
theorem withYear_eq (b : Build) (d : ZipDateTime) (y : Int32)
    (h : b.overflowChecks = false ∨ -(2 ^ 31 : Int) + 1980 ≤ y.toInt) :
    d.withYear b y = .ok { d with date := d.date ||| UInt16.ofNat (((y.toInt - 1980) % 128).toNat * 2 ^ 9) } := by
  have h' := place_mask (y - 1980).toUInt32.toNat 9 7 32 (by decide)
  rw [show ((2 : Nat) ^ 7 - 1) <<< 9 = 65024 from rfl] at h'
  have e1 : ((((y - 1980) <<< 9) &&& 0xFE00).toUInt32.toNat) = (y - 1980).toUInt32.toNat % 2 ^ 7 * 2 ^ 9 := by
    rw [← h']
    have hs : ∀ x : Int32, (x <<< (9 : Int32)).toUInt32 = x.toUInt32 <<< (9 : UInt32) := by
      intro x
      apply UInt32.toBitVec_inj.1
      show (x <<< (9 : Int32)).toBitVec = x.toBitVec <<< (9#32 % 32#32)
      rw [Int32.toBitVec_shiftLeft]
      rfl
    rw [Int32.toUInt32_and, hs, UInt32.toNat_and, UInt32.toNat_shiftLeft]
    rfl
  have e2 : (y - 1980).toUInt32.toNat % 2 ^ 7 = ((y.toInt - 1980) % 128).toNat := by
    have h1 : (y - 1980).toUInt32 = y.toUInt32 - 1980 := by simp [Int32.toUInt32_sub]; rfl
    have h2 : (y.toUInt32.toNat : Int) % 2 ^ 32 = y.toInt % 2 ^ 32 := by
      have : y.toInt = (y.toUInt32.toNat : Int).bmod (2 ^ 32) := by
        show y.toBitVec.toInt = _
        rw [BitVec.toInt_eq_toNat_bmod]
        rfl
      rw [this]
      exact (Int.bmod_emod (m := 2 ^ 32)).symm
    rw [h1, UInt32.toNat_sub]
    simp only [UInt32.reduceToNat]
    have := y.toUInt32.toNat_lt
    omega
  unfold withYear
  rw [e1, e2, unwrapU16_ok _ (by omega), if_neg]
  · rfl
  · rcases h with h | h
    · simp [h]
    · simp; intro; omega

end ZipDateTime
end AsyncZip
