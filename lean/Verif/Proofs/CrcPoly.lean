import Verif.Spec.Crc
import Verif.Proofs.Crc
import Mathlib.Tactic.Ring
import Mathlib.Tactic.ComputeDegree
/-!
# The bit-serial algorithm computes the remainder
-/

namespace AsyncZip
open Spec Polynomial

/-- A bit as a coefficient. -/
noncomputable def coef (bit : Bool) : (ZMod 2)[X] := if bit then 1 else 0

theorem two_eq_zero : (2 : (ZMod 2)[X]) = 0 := by
  have h : (2 : ZMod 2) = 0 := by decide
  rw [← map_ofNat (C (R := ZMod 2)) 2, h, map_zero]

theorem coef_xor (a b : Bool) : coef (a ^^ b) = coef a + coef b := by
  cases a <;> cases b <;> simp [coef]
  rw [one_add_one_eq_two, two_eq_zero]

theorem foldl_poly (l : List Bool) : ∀ p : (ZMod 2)[X],
    l.foldl (fun p bit => p * X + if bit then 1 else 0) p = p * X ^ l.length + polynomial l := by
  induction l with
  | nil => intro p; simp [polynomial]
  | cons a l ih =>
    intro p
    have h : polynomial (a :: l) = (0 * X + if a then 1 else 0) * X ^ l.length + polynomial l := ih _
    rw [List.foldl_cons, ih, h, List.length_cons]
    ring

theorem polynomial_append (l m : List Bool) : polynomial (l ++ m) = polynomial l * X ^ m.length + polynomial m := by
  rw [polynomial, List.foldl_append, foldl_poly]
  rfl

theorem polynomial_cons (a : Bool) (l : List Bool) : polynomial (a :: l) = coef a * X ^ l.length + polynomial l := by
  rw [polynomial, List.foldl_cons, foldl_poly, coef]
  ring

theorem polynomial_nil : polynomial [] = 0 := rfl

theorem polynomial_false (n : Nat) : polynomial (List.replicate n false) = 0 := by
  induction n with
  | zero => rfl
  | succ n ih => rw [List.replicate_succ, polynomial_cons, ih]; simp [coef]

theorem polynomial_xor (l : List Nat) (f g : Nat → Bool) :
    polynomial (l.map fun i => f i ^^ g i) = polynomial (l.map f) + polynomial (l.map g) := by
  induction l with
  | nil => simp [polynomial_nil]
  | cons a l ih =>
    simp only [List.map_cons, polynomial_cons, List.length_map, ih, coef_xor]
    ring

theorem degree_polynomial (l : List Bool) : (polynomial l).degree < l.length := by
  induction l with
  | nil => rw [polynomial_nil, degree_zero]; exact WithBot.bot_lt_coe _
  | cons a l ih =>
    rw [polynomial_cons, List.length_cons]
    refine lt_of_le_of_lt (degree_add_le _ _) (max_lt ?_ (lt_of_lt_of_le ih (by exact_mod_cast Nat.le_succ _)))
    cases a
    · simp only [coef, Bool.false_eq_true, if_false, zero_mul, degree_zero]
      exact WithBot.bot_lt_coe _
    · simp only [coef, if_true, one_mul]
      exact lt_of_le_of_lt (degree_X_pow_le _) (by exact_mod_cast Nat.lt_succ_self _)

theorem polynomial_inj : ∀ {l m : List Bool}, l.length = m.length → polynomial l = polynomial m → l = m := by
  intro l
  induction l with
  | nil => intro m h _; exact (List.length_eq_zero_iff.1 h.symm).symm
  | cons a l ih =>
    intro m hl h
    cases m with
    | nil => cases hl
    | cons c m =>
      have hl' : l.length = m.length := by simpa using hl
      have key : ∀ (a : Bool) (l : List Bool), (polynomial (a :: l)).coeff l.length = if a then 1 else 0 := by
        intro a l
        rw [polynomial_cons, coeff_add, coeff_eq_zero_of_degree_lt (degree_polynomial l), add_zero]
        cases a <;> simp [coef]
      have h1 := key a l
      have h2 := key c m
      rw [h, hl', h2] at h1
      have hac : a = c := by
        cases a <;> cases c <;> simp at h1 <;> rfl
      subst hac
      rw [polynomial_cons, polynomial_cons, hl'] at h
      rw [ih hl' (add_left_cancel h)]

/-- The register as a polynomial. -/
noncomputable def regPoly (s : BitVec 32) : (ZMod 2)[X] := polynomial ((List.range 32).map s.getLsbD)

theorem regPoly_xor (s t : BitVec 32) : regPoly (s ^^^ t) = regPoly s + regPoly t := by
  rw [regPoly, regPoly, regPoly, ← polynomial_xor]
  congr 2
  funext i
  exact BitVec.getLsbD_xor

theorem regPoly_tap : regPoly 0xEDB88320#32 = generator - X ^ 32 := by
  rw [regPoly, show (List.range 32).map (0xEDB88320#32).getLsbD =
    [false, false, false, false, false, true, false, false, true, true, false, false, false, false, false, true,
     false, false, false, true, true, true, false, true, true, false, true, true, false, true, true, true] by decide]
  simp only [polynomial, List.foldl_cons, List.foldl_nil, generator, if_true, Bool.false_eq_true, if_false]
  ring

theorem regPoly_shift (s : BitVec 32) : X * regPoly s = coef (s.getLsbD 0) * X ^ 32 + regPoly (s >>> 1) := by
  have h1 : (List.range 32).map s.getLsbD = s.getLsbD 0 :: (List.range 31).map fun i => s.getLsbD (1 + i) := by
    rw [show List.range 32 = 0 :: (List.range 31).map (1 + ·) by decide, List.map_cons, List.map_map]
    rfl
  have h2 : (List.range 32).map (s >>> 1).getLsbD = ((List.range 31).map fun i => s.getLsbD (1 + i)) ++ [false] := by
    rw [show List.range 32 = List.range 31 ++ [31] by decide, List.map_append]
    refine congrArg₂ (· ++ ·) (List.map_congr_left fun i _ => ?_) ?_
    · rw [BitVec.getLsbD_ushiftRight]
    · simp
  rw [regPoly, regPoly, h1, h2, polynomial_cons, polynomial_append, polynomial_cons, polynomial_nil]
  simp only [List.length_map, List.length_range, List.length_cons, List.length_nil, coef, Bool.false_eq_true, if_false]
  ring

/-- Congruence modulo the generator. -/
def Cong (p q : (ZMod 2)[X]) : Prop := generator ∣ p - q

theorem Cong.refl (p : (ZMod 2)[X]) : Cong p p := by rw [Cong, sub_self]; exact dvd_zero _
theorem Cong.trans {p q r : (ZMod 2)[X]} (h : Cong p q) (h' : Cong q r) : Cong p r := by
  have := dvd_add h h'
  rwa [sub_add_sub_cancel] at this
theorem Cong.mul {p q : (ZMod 2)[X]} (h : Cong p q) (r : (ZMod 2)[X]) : Cong (r * p) (r * q) := by
  rw [Cong, ← mul_sub]; exact Dvd.dvd.mul_left h r
theorem Cong.add {p q p' q' : (ZMod 2)[X]} (h : Cong p q) (h' : Cong p' q') : Cong (p + p') (q + q') := by
  have := dvd_add h h'
  rwa [show p - q + (p' - q') = p + p' - (q + q') by ring] at this

theorem crcBit_cong (s : BitVec 32) : Cong (regPoly (crcBit s)) (X * regPoly s) := by
  rw [crcBit, regPoly_xor, regPoly_shift]
  cases s.getLsbD 0
  · have : regPoly 0#32 = 0 := by
      rw [regPoly, show (List.range 32).map (0#32).getLsbD = List.replicate 32 false by decide, polynomial_false]
    simp only [Bool.false_eq_true, if_false, this, coef, zero_mul, zero_add, add_zero]
    exact Cong.refl _
  · simp only [if_true, coef, one_mul, regPoly_tap, Cong]
    rw [show regPoly (s >>> 1) + (generator - X ^ 32) - (X ^ 32 + regPoly (s >>> 1)) = generator - 2 * X ^ 32 by ring,
      two_eq_zero, zero_mul, sub_zero]

theorem crc8_cong (s : BitVec 32) : Cong (regPoly (crc8 s)) (X ^ 8 * regPoly s) := by
  have step : ∀ {t : BitVec 32} {n : Nat}, Cong (regPoly t) (X ^ n * regPoly s) →
      Cong (regPoly (crcBit t)) (X ^ (n + 1) * regPoly s) := by
    intro t n h
    have := (crcBit_cong t).trans (h.mul X)
    rwa [show X * (X ^ n * regPoly s) = X ^ (n + 1) * regPoly s by ring] at this
  have h0 : Cong (regPoly s) (X ^ 0 * regPoly s) := by rw [pow_zero, one_mul]; exact Cong.refl _
  exact step (step (step (step (step (step (step (step h0)))))))

theorem regPoly_low (a : UInt8) : regPoly (a.toBitVec.setWidth 32) = polynomial (lowBits 8 a.toNat) * X ^ 24 := by
  have : (List.range 32).map (a.toBitVec.setWidth 32).getLsbD = lowBits 8 a.toNat ++ List.replicate 24 false := by
    rw [show List.range 32 = List.range 8 ++ (List.range 24).map (8 + ·) by decide, List.map_append, lowBits]
    refine congrArg₂ (· ++ ·) (List.map_congr_left fun i hi => ?_) ?_
    · have := List.mem_range.1 hi
      rw [BitVec.getLsbD_setWidth, decide_eq_true (by omega : i < 32), Bool.true_and]
      rfl
    · rw [List.map_map]
      refine List.ext_getElem (by simp) fun i h1 h2 => ?_
      simp only [List.getElem_map, List.getElem_range, List.getElem_replicate, Function.comp]
      rw [BitVec.getLsbD_setWidth, BitVec.getLsbD_of_ge _ _ (by omega), Bool.and_false]
  rw [regPoly, this, polynomial_append, polynomial_false, List.length_replicate, add_zero]

theorem crcByte_cong (s : BitVec 32) (a : UInt8) :
    Cong (regPoly (crcByte s a)) (X ^ 8 * regPoly s + X ^ 32 * polynomial (lowBits 8 a.toNat)) := by
  rw [crcByte_eq]
  have := crc8_cong (s ^^^ a.toBitVec.setWidth 32)
  rwa [regPoly_xor, regPoly_low, show X ^ 8 * (regPoly s + polynomial (lowBits 8 a.toNat) * X ^ 24) =
    X ^ 8 * regPoly s + X ^ 32 * polynomial (lowBits 8 a.toNat) by ring] at this

theorem messageBits_length (b : List UInt8) : (messageBits b).length = 8 * b.length := by
  induction b with
  | nil => rfl
  | cons a b ih =>
    rw [messageBits, List.flatMap_cons, List.length_append, ← messageBits, ih]
    simp only [lowBits, List.length_map, List.length_range, List.length_cons]
    omega

theorem crcFold_cong (b : Bytes) : ∀ s : BitVec 32, Cong (regPoly (b.foldl crcByte s))
    (X ^ (8 * b.length) * regPoly s + X ^ 32 * polynomial (messageBits b)) := by
  induction b with
  | nil =>
    intro s
    simp only [List.foldl_nil, List.length_nil, messageBits, List.flatMap_nil, polynomial_nil, mul_zero, pow_zero, one_mul,
      add_zero]
    exact Cong.refl _
  | cons a b ih =>
    intro s
    rw [List.foldl_cons]
    have := (ih (crcByte s a)).trans (((crcByte_cong s a).mul (X ^ (8 * b.length))).add
      (Cong.refl (X ^ 32 * polynomial (messageBits b))))
    rw [messageBits, List.flatMap_cons, ← messageBits, polynomial_append, messageBits_length, List.length_cons]
    rwa [show X ^ (8 * b.length) * (X ^ 8 * regPoly s + X ^ 32 * polynomial (lowBits 8 a.toNat)) +
      X ^ 32 * polynomial (messageBits b) = X ^ (8 * (b.length + 1)) * regPoly s +
        X ^ 32 * (polynomial (lowBits 8 a.toNat) * X ^ (8 * b.length) + polynomial (messageBits b)) by ring] at this

theorem generator_eq : generator = X ^ (31 + 1) + (X ^ 26 + X ^ 23 + X ^ 22 + X ^ 16 + X ^ 12 + X ^ 11 + X ^ 10 + X ^ 8 +
    X ^ 7 + X ^ 5 + X ^ 4 + X ^ 2 + X + 1 : (ZMod 2)[X]) := by
  rw [generator]; ring

theorem generator_rest : (X ^ 26 + X ^ 23 + X ^ 22 + X ^ 16 + X ^ 12 + X ^ 11 + X ^ 10 + X ^ 8 +
    X ^ 7 + X ^ 5 + X ^ 4 + X ^ 2 + X + 1 : (ZMod 2)[X]).degree ≤ ((31 : Nat) : WithBot Nat) := by
  compute_degree
  norm_num

theorem generator_monic : generator.Monic := by
  rw [generator_eq]
  exact monic_X_pow_add (lt_of_le_of_lt generator_rest (by norm_num))

theorem generator_degree : generator.degree = ((32 : Nat) : WithBot Nat) := by
  rw [generator_eq, degree_add_eq_left_of_degree_lt, degree_X_pow]
  rw [degree_X_pow]
  exact lt_of_le_of_lt generator_rest (by norm_num)

theorem Cong.modByMonic {p q : (ZMod 2)[X]} (h : Cong p q) (hp : p.degree < ((32 : Nat) : WithBot Nat)) :
    p = q %ₘ generator := by
  have h1 : (p - q) %ₘ generator = 0 := (modByMonic_eq_zero_iff_dvd generator_monic).2 h
  rw [sub_modByMonic, (modByMonic_eq_self_iff generator_monic).2 (by rw [generator_degree]; exact hp)] at h1
  exact sub_eq_zero.1 h1

theorem regPoly_not (s : BitVec 32) : regPoly (~~~s) = regPoly s + ones := by
  have : ones = regPoly 0xFFFFFFFF#32 := by
    rw [regPoly, show (List.range 32).map (0xFFFFFFFF#32).getLsbD = List.replicate 32 true by decide, ones]
  rw [this, ← regPoly_xor]
  congr 1
  rw [show (0xFFFFFFFF#32) = BitVec.allOnes 32 by decide, BitVec.xor_allOnes]

/-- The checksum computed is the one defined. -/
theorem crc32_is (b : Bytes) : IsCrc32 b (crc32 b) := by
  have h := (crcFold_cong b 0xFFFFFFFF#32).modByMonic (by
    have := degree_polynomial ((List.range 32).map (b.foldl crcByte 0xFFFFFFFF#32).getLsbD)
    rwa [List.length_map, List.length_range] at this)
  have ho : ones = regPoly 0xFFFFFFFF#32 := by
    rw [regPoly, show (List.range 32).map (0xFFFFFFFF#32).getLsbD = List.replicate 32 true by decide, ones]
  have hc : polynomial (lowBits 32 (crc32 b).toNat) = regPoly (~~~(b.foldl crcByte 0xFFFFFFFF#32)) := rfl
  rw [IsCrc32, hc, regPoly_not, h, ← add_modByMonic, ← ho, mul_comm ones, mul_comm (polynomial _)]

/-- The definition determines the checksum. -/
theorem IsCrc32.unique {b : List UInt8} {c c' : UInt32} (h : IsCrc32 b c) (h' : IsCrc32 b c') : c = c' := by
  have hl : ∀ v, (lowBits 32 v).length = 32 := fun v => by simp [lowBits]
  have he := polynomial_inj (l := lowBits 32 c.toNat) (m := lowBits 32 c'.toNat) (by rw [hl, hl]) (h.trans h'.symm)
  have : c.toNat = c'.toNat := by
    refine Nat.eq_of_testBit_eq fun i => ?_
    by_cases hi : i < 32
    · have := congrArg (fun l => l[i]?) he
      simpa [lowBits, hi] using this
    · rw [Nat.testBit_lt_two_pow, Nat.testBit_lt_two_pow]
      · exact lt_of_lt_of_le c'.toNat_lt (Nat.pow_le_pow_right (by decide) (by omega))
      · exact lt_of_lt_of_le c.toNat_lt (Nat.pow_le_pow_right (by decide) (by omega))
  exact UInt32.toNat_inj.1 this

end AsyncZip
