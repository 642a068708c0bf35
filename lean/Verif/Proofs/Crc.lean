import Verif.Model.Crc
/-!
# CRC-32: linearity, injectivity, and detection of bursts of up to four bytes
-/

namespace AsyncZip

theorem crcBit_xor (a b : BitVec 32) : crcBit (a ^^^ b) = crcBit a ^^^ crcBit b := by
  apply BitVec.eq_of_getLsbD_eq
  intro i hi
  unfold crcBit
  simp only [BitVec.getLsbD_xor, BitVec.getLsbD_ushiftRight]
  cases a.getLsbD 0 <;> cases b.getLsbD 0 <;>
    cases a.getLsbD (1 + i) <;> cases b.getLsbD (1 + i) <;> simp

theorem crcBit_zero : crcBit 0#32 = 0#32 := by decide

theorem crcBit_eq_zero {a : BitVec 32} (h : crcBit a = 0#32) : a = 0#32 := by
  have hb : ∀ i, (crcBit a).getLsbD i = false := by intro i; rw [h]; simp
  have h0 : a.getLsbD 0 = false := by
    have := hb 31
    unfold crcBit at this
    simp only [BitVec.getLsbD_xor, BitVec.getLsbD_ushiftRight] at this
    rw [BitVec.getLsbD_of_ge a (1 + 31) (by decide)] at this
    cases h0 : a.getLsbD 0
    · rfl
    · rw [h0] at this
      revert this
      decide
  apply BitVec.eq_of_getLsbD_eq
  intro i hi
  cases i with
  | zero => rw [h0]; simp
  | succ i =>
    have := hb i
    unfold crcBit at this
    simp only [BitVec.getLsbD_xor, BitVec.getLsbD_ushiftRight, h0, Bool.false_eq_true, if_false] at this
    rw [Nat.add_comm 1 i] at this
    simpa using this

/-- Eight shifts. -/
def crc8 (s : BitVec 32) : BitVec 32 := crcBit (crcBit (crcBit (crcBit (crcBit (crcBit (crcBit (crcBit s)))))))

theorem crc8_xor (a b : BitVec 32) : crc8 (a ^^^ b) = crc8 a ^^^ crc8 b := by
  simp only [crc8, crcBit_xor]

theorem crc8_zero : crc8 0#32 = 0#32 := by simp only [crc8, crcBit_zero]

theorem crc8_eq_zero {a : BitVec 32} (h : crc8 a = 0#32) : a = 0#32 :=
  crcBit_eq_zero (crcBit_eq_zero (crcBit_eq_zero (crcBit_eq_zero (crcBit_eq_zero (crcBit_eq_zero (crcBit_eq_zero
    (crcBit_eq_zero h)))))))

theorem crcByte_eq (s : BitVec 32) (b : UInt8) : crcByte s b = crc8 (s ^^^ b.toBitVec.setWidth 32) := rfl

theorem xor_eq_zero_iff {a b : BitVec 32} : a ^^^ b = 0#32 ↔ a = b := by
  constructor
  · intro h
    have : a ^^^ b ^^^ b = 0#32 ^^^ b := by rw [h]
    rw [BitVec.xor_assoc, BitVec.xor_self, BitVec.xor_zero, BitVec.zero_xor] at this
    exact this
  · intro h; rw [h, BitVec.xor_self]

theorem crcByte_inj {s s' : BitVec 32} {b : UInt8} (h : crcByte s b = crcByte s' b) : s = s' := by
  rw [crcByte_eq, crcByte_eq, ← xor_eq_zero_iff, ← crc8_xor] at h
  have := crc8_eq_zero h
  rw [xor_eq_zero_iff] at this
  have h2 : s ^^^ b.toBitVec.setWidth 32 ^^^ b.toBitVec.setWidth 32 = s' ^^^ b.toBitVec.setWidth 32 ^^^ b.toBitVec.setWidth 32 := by
    rw [this]
  rwa [BitVec.xor_assoc, BitVec.xor_self, BitVec.xor_zero, BitVec.xor_assoc, BitVec.xor_self, BitVec.xor_zero] at h2

theorem crcFold_inj (q : Bytes) : ∀ {s s' : BitVec 32}, q.foldl crcByte s = q.foldl crcByte s' → s = s' := by
  induction q with
  | nil => intro s s' h; exact h
  | cons b q ih => intro s s' h; exact crcByte_inj (ih h)

/-- Bits beyond the lowest pass through a shift. -/
theorem crcBit_shl (y : BitVec 32) (h : y.getLsbD 31 = false) : crcBit (y <<< 1) = y := by
  apply BitVec.eq_of_getLsbD_eq
  intro i hi
  unfold crcBit
  have h0 : (y <<< 1).getLsbD 0 = false := by simp
  simp only [h0, Bool.false_eq_true, if_false, BitVec.xor_zero, BitVec.getLsbD_ushiftRight, BitVec.getLsbD_shiftLeft]
  by_cases hi' : i = 31
  · subst hi'; rw [h]; simp
  · have : 1 + i < 32 := by omega
    simp [this]

theorem crc8_shl (y : BitVec 32) (h : ∀ i, 24 ≤ i → y.getLsbD i = false) : crc8 (y <<< 8) = y := by
  have e : y <<< 8 = y <<< 1 <<< 1 <<< 1 <<< 1 <<< 1 <<< 1 <<< 1 <<< 1 := by
    simp only [← BitVec.shiftLeft_add]
  rw [e]
  unfold crc8
  have g : ∀ k, k ≤ 7 → (y <<< k).getLsbD 31 = false := by
    intro k hk
    rw [BitVec.getLsbD_shiftLeft]
    simp [h (31 - k) (by omega)]
  have g' := fun k hk => crcBit_shl (y <<< k) (g k hk)
  simp only [← BitVec.shiftLeft_add, Nat.reduceAdd]
  have s0 := g' 0 (by omega)
  have s1 := g' 1 (by omega)
  have s2 := g' 2 (by omega)
  have s3 := g' 3 (by omega)
  have s4 := g' 4 (by omega)
  have s5 := g' 5 (by omega)
  have s6 := g' 6 (by omega)
  have s7 := g' 7 (by omega)
  simp only [← BitVec.shiftLeft_add, Nat.reduceAdd, BitVec.shiftLeft_zero] at s0 s1 s2 s3 s4 s5 s6 s7
  rw [s7, s6, s5, s4, s3, s2, s1, s0]

/-- The difference of two runs over equally long strings evolves linearly. -/
theorem crcByte_diff (s s' : BitVec 32) (a b : UInt8) :
    crcByte s a ^^^ crcByte s' b = crc8 ((s ^^^ s') ^^^ (a ^^^ b).toBitVec.setWidth 32) := by
  rw [crcByte_eq, crcByte_eq, ← crc8_xor]
  congr 1
  have : (a ^^^ b).toBitVec.setWidth 32 = a.toBitVec.setWidth 32 ^^^ b.toBitVec.setWidth 32 := by
    apply BitVec.eq_of_getLsbD_eq
    intro i hi
    simp only [BitVec.getLsbD_xor, BitVec.getLsbD_setWidth, UInt8.toBitVec_xor, hi, decide_true, Bool.true_and]
  rw [this]
  ac_rfl

/-- A byte as the low byte of the register. -/
def low (a : UInt8) : BitVec 32 := a.toBitVec.setWidth 32

theorem low_high (a : UInt8) (i : Nat) (h : 8 ≤ i) : (low a).getLsbD i = false := by
  rw [low, BitVec.getLsbD_setWidth, BitVec.getLsbD_of_ge _ _ h]
  simp

theorem low_eq_zero {a : UInt8} (h : low a = 0#32) : a = 0 := by
  have : a.toBitVec = 0#8 := by
    apply BitVec.eq_of_getLsbD_eq
    intro i hi
    have := congrArg (fun v => BitVec.getLsbD v i) h
    simp only [low, BitVec.getLsbD_setWidth, BitVec.getLsbD_zero] at this
    have h32 : i < 32 := by omega
    simpa [h32] using this
  exact UInt8.toBitVec_inj.1 this

/-- Four difference bytes cancel only if they are all zero. -/
theorem diff4 (x0 x1 x2 x3 : UInt8)
    (h : crc8 (crc8 (crc8 (crc8 (low x0) ^^^ low x1) ^^^ low x2) ^^^ low x3) = 0#32) :
    x0 = 0 ∧ x1 = 0 ∧ x2 = 0 ∧ x3 = 0 := by
  have sh : ∀ (a : BitVec 32) (y : BitVec 32), (∀ i, 24 ≤ i → y.getLsbD i = false) →
      crc8 a ^^^ y = crc8 (a ^^^ y <<< 8) := by
    intro a y hy
    rw [crc8_xor, crc8_shl y hy]
  have hl : ∀ (a : UInt8) (k : Nat), k ≤ 16 → ∀ i, 24 ≤ i → ((low a) <<< k).getLsbD i = false := by
    intro a k hk i hi
    rw [BitVec.getLsbD_shiftLeft, low_high a (i - k) (by omega)]
    simp
  have hx : ∀ (a b : BitVec 32), (∀ i, 24 ≤ i → a.getLsbD i = false) → (∀ i, 24 ≤ i → b.getLsbD i = false) →
      ∀ i, 24 ≤ i → (a ^^^ b).getLsbD i = false := by
    intro a b ha hb i hi
    rw [BitVec.getLsbD_xor, ha i hi, hb i hi]
    rfl
  have l0 : ∀ a : UInt8, ∀ i, 24 ≤ i → (low a).getLsbD i = false := fun a i hi => low_high a i (by omega)
  have e3 := crc8_eq_zero h
  -- pull the last byte inside, then the one before, and so on
  rw [sh _ _ (l0 x3), ] at e3
  have e2 := crc8_eq_zero e3
  rw [BitVec.xor_assoc, sh _ (low x2 ^^^ low x3 <<< 8) (hx _ _ (l0 x2) (hl x3 8 (by omega)))] at e2
  have e1 := crc8_eq_zero e2
  have hs : ∀ (a b : BitVec 32) (k : Nat), (a ^^^ b) <<< k = a <<< k ^^^ b <<< k := by
    intro a b k
    exact BitVec.shiftLeft_xor_distrib a b k
  rw [hs, ← BitVec.shiftLeft_add, BitVec.xor_assoc,
    sh _ (low x1 ^^^ (low x2 <<< 8 ^^^ low x3 <<< (8 + 8)))
      (hx _ _ (l0 x1) (hx _ _ (hl x2 8 (by omega)) (hl x3 16 (by omega))))] at e1
  have e0 := crc8_eq_zero e1
  rw [hs, hs, ← BitVec.shiftLeft_add, ← BitVec.shiftLeft_add] at e0
  -- e0 : the packed word is zero; read off its bytes
  have bits : ∀ i, i < 32 → ((low x0).getLsbD i ^^ ((low x1 <<< 8).getLsbD i ^^ ((low x2 <<< (8 + 8)).getLsbD i
      ^^ (low x3 <<< (8 + 8 + 8)).getLsbD i))) = false := by
    intro i hi
    have := congrArg (fun v => BitVec.getLsbD v i) e0
    simpa only [BitVec.getLsbD_xor, BitVec.getLsbD_zero] using this
  have byte : ∀ (x : UInt8), (∀ i, i < 8 → (low x).getLsbD i = false) → x = 0 := by
    intro x hx
    apply low_eq_zero
    apply BitVec.eq_of_getLsbD_eq
    intro i hi
    rw [BitVec.getLsbD_zero]
    by_cases h8 : i < 8
    · exact hx i h8
    · exact low_high x i (by omega)
  refine ⟨byte x0 ?_, byte x1 ?_, byte x2 ?_, byte x3 ?_⟩ <;> intro i hi
  · have := bits i (by omega)
    simp only [BitVec.getLsbD_shiftLeft] at this
    simpa [show i < 8 + 8 by omega, show i < 8 + 8 + 8 by omega, hi] using this
  · have := bits (i + 8) (by omega)
    rw [low_high x0 _ (by omega)] at this
    simp only [BitVec.getLsbD_shiftLeft] at this
    simpa [show i + 8 < 8 + 8 by omega, show i + 8 < 8 + 8 + 8 by omega, show i + 8 < 32 by omega] using this
  · have := bits (i + 16) (by omega)
    rw [low_high x0 _ (by omega)] at this
    simp only [BitVec.getLsbD_shiftLeft] at this
    rw [low_high x1 _ (by omega)] at this
    simpa [show i + 16 < 8 + 8 + 8 by omega, show i + 16 < 32 by omega] using this
  · have := bits (i + 24) (by omega)
    rw [low_high x0 _ (by omega)] at this
    simp only [BitVec.getLsbD_shiftLeft] at this
    rw [low_high x1 _ (by omega), low_high x2 _ (by omega)] at this
    simpa [show i + 24 < 32 by omega] using this

theorem u8_xor_eq_zero {a b : UInt8} (h : a ^^^ b = 0) : a = b := UInt8.xor_eq_zero_iff.1 h

/-- Two equally long strings of at most four bytes with the same effect on the register are equal. -/
theorem crc_window {w w' : Bytes} (hl : w.length = w'.length) (h4 : w.length ≤ 4) (s : BitVec 32)
    (h : w.foldl crcByte s = w'.foldl crcByte s) : w = w' := by
  -- pad with zero bytes to four
  have pad : ∀ k, (w ++ List.replicate k 0).foldl crcByte s = (w' ++ List.replicate k 0).foldl crcByte s := by
    intro k; rw [List.foldl_append, List.foldl_append, h]
  have four : ∀ (v v' : Bytes), v.length = 4 → v'.length = 4 → v.foldl crcByte s = v'.foldl crcByte s → v = v' := by
    intro v v' hv hv' he
    match v, v', hv, hv' with
    | [a0, a1, a2, a3], [b0, b1, b2, b3], _, _ =>
      simp only [List.foldl] at he
      rw [← xor_eq_zero_iff, crcByte_diff, crcByte_diff, crcByte_diff, crcByte_diff, BitVec.xor_self, BitVec.zero_xor] at he
      obtain ⟨h0, h1, h2, h3⟩ := diff4 _ _ _ _ he
      rw [u8_xor_eq_zero h0, u8_xor_eq_zero h1, u8_xor_eq_zero h2, u8_xor_eq_zero h3]
  have := four _ _ (by simp; omega) (by simp; omega) (pad (4 - w.length))
  have := (List.append_inj this hl).1
  exact this

/-- CRC-32 distinguishes equally long byte strings that differ only inside a window of four bytes. -/
theorem crc32_burst {p w w' q : Bytes} (hl : w.length = w'.length) (h4 : w.length ≤ 4)
    (h : crc32 (p ++ w ++ q) = crc32 (p ++ w' ++ q)) : w = w' := by
  unfold crc32 Hasher.finalize at h
  have h := congrArg UInt32.toBitVec h
  simp only at h
  have h := congrArg (fun v => ~~~v) h
  simp only [BitVec.not_not, Hasher.update, List.foldl_append] at h
  exact crc_window hl h4 _ (crcFold_inj q h)

theorem Hasher.update_append (h : Hasher) (a b : Bytes) : (h.update a).update b = h.update (a ++ b) := by
  simp [Hasher.update, List.foldl_append]

theorem Hasher.update_nil (h : Hasher) : h.update [] = h := rfl

end AsyncZip
