import Verif.Model.Header
/-! Little-endian lemmas. -/

namespace AsyncZip

@[simp] theorem leBytes_length (k n : Nat) : (leBytes k n).length = k := by
  induction k generalizing n with
  | zero => rfl
  | succ k ih => simp [leBytes, ih]

@[simp] theorem le16_length (x : UInt16) : (le16 x).length = 2 := rfl
@[simp] theorem le32_length (x : UInt32) : (le32 x).length = 4 := rfl
@[simp] theorem le64_length (x : UInt64) : (le64 x).length = 8 := rfl

theorem leNat_leBytes (k n : Nat) : leNat (leBytes k n) = n % 256 ^ k := by
  induction k generalizing n with
  | zero => simp [leBytes, leNat, Nat.mod_one]
  | succ k ih =>
    simp only [leBytes, leNat, ih, UInt8.toNat_ofNat']
    rw [show 256 ^ (k + 1) = 256 * 256 ^ k from by rw [Nat.pow_succ, Nat.mul_comm], Nat.mod_mul]
    simp

theorem leNat_lt (b : Bytes) : leNat b < 256 ^ b.length := by
  induction b with
  | nil => simp [leNat]
  | cons x xs ih =>
    have := x.toNat_lt
    simp only [leNat, List.length_cons, Nat.pow_succ]
    omega

theorem leBytes_leNat (b : Bytes) : leBytes b.length (leNat b) = b := by
  induction b with
  | nil => rfl
  | cons x xs ih =>
    have hx := x.toNat_lt
    have h1 : (x.toNat + 256 * leNat xs) % 256 = x.toNat := by omega
    have h2 : (x.toNat + 256 * leNat xs) / 256 = leNat xs := by omega
    simp only [List.length_cons, leBytes, leNat, h1, h2, ih]
    simp

@[simp] theorem fromLe16_le16 (x : UInt16) : fromLe16 (le16 x) = x := by
  have := x.toNat_lt
  simp only [fromLe16, le16, leNat_leBytes]
  rw [Nat.mod_eq_of_lt (by omega)]; simp
@[simp] theorem fromLe32_le32 (x : UInt32) : fromLe32 (le32 x) = x := by
  have := x.toNat_lt
  simp only [fromLe32, le32, leNat_leBytes]
  rw [Nat.mod_eq_of_lt (by omega)]; simp
@[simp] theorem fromLe64_le64 (x : UInt64) : fromLe64 (le64 x) = x := by
  have := x.toNat_lt
  simp only [fromLe64, le64, leNat_leBytes]
  rw [Nat.mod_eq_of_lt (by omega)]; simp

theorem le16_fromLe16 (b : Bytes) (h : b.length = 2) : le16 (fromLe16 b) = b := by
  have := leNat_lt b
  rw [h] at this
  simp only [le16, fromLe16, UInt16.toNat_ofNat']
  rw [Nat.mod_eq_of_lt (by omega)]
  have := leBytes_leNat b
  rwa [h] at this
theorem le32_fromLe32 (b : Bytes) (h : b.length = 4) : le32 (fromLe32 b) = b := by
  have := leNat_lt b
  rw [h] at this
  simp only [le32, fromLe32, UInt32.toNat_ofNat']
  rw [Nat.mod_eq_of_lt (by omega)]
  have := leBytes_leNat b
  rwa [h] at this
theorem le64_fromLe64 (b : Bytes) (h : b.length = 8) : le64 (fromLe64 b) = b := by
  have := leNat_lt b
  rw [h] at this
  simp only [le64, fromLe64, UInt64.toNat_ofNat']
  rw [Nat.mod_eq_of_lt (by omega)]
  have := leBytes_leNat b
  rwa [h] at this

theorem le16_inj {x y : UInt16} (h : le16 x = le16 y) : x = y := by
  rw [← fromLe16_le16 x, h, fromLe16_le16]
theorem le32_inj {x y : UInt32} (h : le32 x = le32 y) : x = y := by
  rw [← fromLe32_le32 x, h, fromLe32_le32]
theorem le64_inj {x y : UInt64} (h : le64 x = le64 y) : x = y := by
  rw [← fromLe64_le64 x, h, fromLe64_le64]

theorem slice_length (b : Bytes) (i j : Nat) (h : j ≤ b.length) : (slice b i j).length = j - i := by
  simp [slice]; omega

theorem slice_append_slice (b : Bytes) (i j k : Nat) (h : i ≤ j) (h' : j ≤ k) :
    slice b i j ++ slice b j k = slice b i k := by
  simp only [slice]
  have : b.drop j = (b.drop i).drop (j - i) := by rw [List.drop_drop]; congr 1; omega
  rw [this, ← List.take_add]
  congr 1; omega

theorem slice_all (b : Bytes) (k : Nat) (h : b.length = k) : slice b 0 k = b := by
  simp [slice, ← h]

@[simp] theorem flags_length (f : GeneralPurposeFlag) : f.asSlice.length = 2 := rfl

@[simp] theorem flags_ofU16_asSlice (f : GeneralPurposeFlag) :
    GeneralPurposeFlag.ofU16 (fromLe16 f.asSlice) = f := by
  rcases f with ⟨_ | _, _ | _, _ | _⟩ <;> decide

theorem lfh_length (h : LocalFileHeader) : h.asSlice.length = 26 := by
  simp [LocalFileHeader.asSlice]
theorem cdr_length (h : CentralDirectoryRecord) : h.asSlice.length = 42 := by
  simp [CentralDirectoryRecord.asSlice]
theorem eocdr_length (h : EndOfCentralDirectoryHeader) : h.asSlice.length = 18 := by
  simp [EndOfCentralDirectoryHeader.asSlice]
theorem z64eocdr_length (h : Zip64EndOfCentralDirectoryRecord) : h.asBytes.length = 52 := by
  simp [Zip64EndOfCentralDirectoryRecord.asBytes]
theorem z64eocdl_length (h : Zip64EndOfCentralDirectoryLocator) : h.asBytes.length = 16 := by
  simp [Zip64EndOfCentralDirectoryLocator.asBytes]

theorem slice_skip {a b : Bytes} {i j n : Nat} (h : a.length = n) (hi : n ≤ i) :
    slice (a ++ b) i j = slice b (i - n) (j - n) := by
  subst h
  simp only [slice, List.drop_append, List.drop_eq_nil_of_le hi, List.nil_append]
  congr 1; omega

theorem slice_here {a b : Bytes} {n : Nat} (h : a.length = n) : slice (a ++ b) 0 n = a := by
  subst h
  simp [slice]

/-- Evaluate slices of a concatenation of fixed-width pieces. -/
macro "slices" : tactic => `(tactic|
  simp (discharger := first | rfl | decide) only [List.append_assoc, slice_skip (le16_length _), slice_skip (le32_length _),
    slice_skip (le64_length _), slice_skip (flags_length _), slice_here (le16_length _), slice_here (le32_length _),
    slice_here (le64_length _), slice_here (flags_length _), Nat.reduceSub, slice_all _ _ (le16_length _),
    slice_all _ _ (le32_length _), slice_all _ _ (le64_length _), fromLe16_le16, fromLe32_le32, fromLe64_le64,
    flags_ofU16_asSlice])

theorem lfh_ofBytes_asSlice (h : LocalFileHeader) : LocalFileHeader.ofBytes h.asSlice = h := by
  unfold LocalFileHeader.ofBytes LocalFileHeader.asSlice
  slices

theorem cdr_ofBytes_asSlice (h : CentralDirectoryRecord) : CentralDirectoryRecord.ofBytes h.asSlice = h := by
  unfold CentralDirectoryRecord.ofBytes CentralDirectoryRecord.asSlice
  slices

theorem eocdr_ofBytes_asSlice (h : EndOfCentralDirectoryHeader) :
    EndOfCentralDirectoryHeader.ofBytes h.asSlice = h := by
  unfold EndOfCentralDirectoryHeader.ofBytes EndOfCentralDirectoryHeader.asSlice
  slices

theorem z64eocdr_ofBytes_asBytes (h : Zip64EndOfCentralDirectoryRecord) :
    Zip64EndOfCentralDirectoryRecord.ofBytes h.asBytes = h := by
  unfold Zip64EndOfCentralDirectoryRecord.ofBytes Zip64EndOfCentralDirectoryRecord.asBytes
  slices

theorem z64eocdl_ofBytes_asBytes (h : Zip64EndOfCentralDirectoryLocator) :
    Zip64EndOfCentralDirectoryLocator.ofBytes h.asBytes = h := by
  unfold Zip64EndOfCentralDirectoryLocator.ofBytes Zip64EndOfCentralDirectoryLocator.asBytes
  slices

end AsyncZip
