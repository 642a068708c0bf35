import Verif.Spec.Layout
import Verif.Proofs.Le
/-! Field extraction agrees with slicing. -/

namespace AsyncZip
open Spec

theorem leNat_eq_sum (b : Bytes) :
    leNat b = ((List.range b.length).map fun i => (b.getD i 0).toNat * 256 ^ i).sum := by
  induction b with
  | nil => rfl
  | cons x xs ih =>
    rw [List.length_cons, List.range_succ_eq_map, List.map_cons, List.sum_cons, leNat, ih, List.map_map]
    have : (List.range xs.length).map ((fun i => ((x :: xs).getD i 0).toNat * 256 ^ i) ∘ Nat.succ)
        = (List.range xs.length).map fun i => 256 * ((xs.getD i 0).toNat * 256 ^ i) := by
      apply List.map_congr_left
      intro i _
      simp only [Function.comp_apply, Nat.succ_eq_add_one, List.getD_cons_succ, Nat.pow_succ]
      rw [Nat.mul_comm (256 ^ i) 256, ← Nat.mul_assoc, ← Nat.mul_assoc, Nat.mul_comm _ 256]
    rw [this]
    have hs : ∀ l : List Nat, ∀ g : Nat → Nat, (l.map fun i => 256 * g i).sum = 256 * (l.map g).sum := by
      intro l g
      induction l with
      | nil => rfl
      | cons a l ih => simp [ih, Nat.mul_add]
    rw [hs]
    simp

theorem fieldAt_eq (b : Bytes) (off w : Nat) (h : off + w ≤ b.length) :
    fieldAt b off w = leNat (slice b off (off + w)) := by
  rw [leNat_eq_sum, slice_length _ _ _ h, fieldAt]
  congr 1
  have : off + w - off = w := by omega
  rw [this]
  apply List.map_congr_left
  intro i hi
  have hi := List.mem_range.1 hi
  simp only [slice, List.getD_eq_getElem?_getD]
  rw [List.getElem?_take_of_lt (by omega), List.getElem?_drop]

theorem leNat_le16 (x : UInt16) : leNat (le16 x) = x.toNat := by
  have := x.toNat_lt
  rw [le16, leNat_leBytes]; exact Nat.mod_eq_of_lt (by omega)
theorem leNat_le32 (x : UInt32) : leNat (le32 x) = x.toNat := by
  have := x.toNat_lt
  rw [le32, leNat_leBytes]; exact Nat.mod_eq_of_lt (by omega)
theorem leNat_le64 (x : UInt64) : leNat (le64 x) = x.toNat := by
  have := x.toNat_lt
  rw [le64, leNat_leBytes]; exact Nat.mod_eq_of_lt (by omega)

theorem leNat_flags (f : GeneralPurposeFlag) :
    leNat f.asSlice = flagWord f.encrypted f.dataDescriptor f.filenameUnicode := by
  rcases f with ⟨_ | _, _ | _, _ | _⟩ <;> decide

theorem nat_and_two_pow (n i : Nat) : n &&& 2 ^ i = (n.testBit i).toNat * 2 ^ i := by
  apply Nat.eq_of_testBit_eq
  intro j
  rw [Nat.testBit_and, Nat.testBit_two_pow]
  by_cases h : i = j
  · subst h; cases n.testBit i <;> simp
  · cases n.testBit i <;> simp [h]

theorem bit_and (v : UInt16) (i : Nat) (hi : i < 16) :
    (v &&& UInt16.ofNat (2 ^ i)) = if v.toNat.testBit i then UInt16.ofNat (2 ^ i) else 0 := by
  apply UInt16.toNat.inj
  have h2 : 2 ^ i < 2 ^ 16 := Nat.pow_lt_pow_right (by omega) hi
  rw [UInt16.toNat_and, UInt16.toNat_ofNat', Nat.mod_eq_of_lt h2, nat_and_two_pow]
  split
  · rename_i h; rw [h, UInt16.toNat_ofNat', Nat.mod_eq_of_lt h2]; simp
  · rename_i h; simp [Bool.not_eq_true] at h; simp [h]

theorem flags_ofU16 (v : UInt16) : GeneralPurposeFlag.ofU16 v =
    { encrypted := v.toNat.testBit 0, dataDescriptor := v.toNat.testBit 3, filenameUnicode := v.toNat.testBit 11 } := by
  have h0 := bit_and v 0 (by omega)
  have h3 := bit_and v 3 (by omega)
  have h11 := bit_and v 11 (by omega)
  simp only [GeneralPurposeFlag.ofU16, GeneralPurposeFlag.mk.injEq]
  rw [show (0x1 : UInt16) = UInt16.ofNat (2 ^ 0) from rfl, show (0x8 : UInt16) = UInt16.ofNat (2 ^ 3) from rfl,
    show (0x800 : UInt16) = UInt16.ofNat (2 ^ 11) from rfl, h0, h3, h11]
  refine ⟨?_, ?_, ?_⟩ <;> split <;> simp_all <;> decide

theorem flags_reencode (v : UInt16) : (GeneralPurposeFlag.ofU16 v).asSlice = le16 (v &&& 0x809) := by
  have h0 := bit_and v 0 (by omega)
  have h3 := bit_and v 3 (by omega)
  have h11 := bit_and v 11 (by omega)
  have hsplit : v &&& 0x809 = (v &&& 0x1) ||| (v &&& 0x8) ||| (v &&& 0x800) := by
    apply UInt16.toNat.inj
    simp only [UInt16.toNat_and, UInt16.toNat_or, ← Nat.and_or_distrib_left]
    rfl
  rw [flags_ofU16, GeneralPurposeFlag.asSlice, hsplit,
    show (0x1 : UInt16) = UInt16.ofNat (2 ^ 0) from rfl, show (0x8 : UInt16) = UInt16.ofNat (2 ^ 3) from rfl,
    show (0x800 : UInt16) = UInt16.ofNat (2 ^ 11) from rfl, h0, h3, h11]
  cases v.toNat.testBit 0 <;> cases v.toNat.testBit 3 <;> cases v.toNat.testBit 11 <;> rfl


end AsyncZip
