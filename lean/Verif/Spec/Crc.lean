import Mathlib.Algebra.Polynomial.Div
import Mathlib.Data.ZMod.Basic
/-!
# CRC-32 as the standards define it (ISO/IEC 3309, ITU-T V.42 8.1.1.6.2; APPNOTE 4.4.7)

Nothing here refers to registers or shifts: the checksum is the remainder of a division of polynomials over the field of two
elements.
-/

namespace AsyncZip.Spec
open Polynomial

/-- The lowest `n` bits of `v`, the least significant first, which is the order of transmission. -/
def lowBits (n v : Nat) : List Bool := (List.range n).map v.testBit

/-- The polynomial whose coefficients are `bits`, the highest power first. -/
noncomputable def polynomial (bits : List Bool) : (ZMod 2)[X] :=
  bits.foldl (fun p bit => p * X + if bit then 1 else 0) 0

/-- The bits of a message in the order of transmission. -/
def messageBits (b : List UInt8) : List Bool := b.flatMap fun x => lowBits 8 x.toNat

/-- The generator polynomial of CRC-32. -/
noncomputable def generator : (ZMod 2)[X] :=
  X ^ 32 + X ^ 26 + X ^ 23 + X ^ 22 + X ^ 16 + X ^ 12 + X ^ 11 + X ^ 10 + X ^ 8 + X ^ 7 + X ^ 5 + X ^ 4 + X ^ 2 + X + 1

/-- `X ^ 31 + ... + X + 1`. -/
noncomputable def ones : (ZMod 2)[X] := polynomial (List.replicate 32 true)

/-- `c` is the CRC-32 of `b`: the complement of the sum of the remainder of `X ^ k * ones`, `k` the number of bits, and the
remainder of the message times `X ^ 32`. -/
def IsCrc32 (b : List UInt8) (c : UInt32) : Prop :=
  polynomial (lowBits 32 c.toNat) =
    (ones * X ^ (8 * b.length)) %ₘ generator + (polynomial (messageBits b) * X ^ 32) %ₘ generator + ones

end AsyncZip.Spec
