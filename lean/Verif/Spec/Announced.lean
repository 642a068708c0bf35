import Verif.Spec.Reading
import Verif.Spec.Written
/-!
# The local header of an entry that is streamed
-/

namespace AsyncZip.Spec

/-- At `off` there is a local header that promises a data descriptor (bit 3) and, although the values follow in the descriptor,
already has this checksum and these sizes: in its own fields, or, unless ZIP64 is forbidden, in a ZIP64 field. -/
structure Announces (data : List UInt8) (off : Nat) (noZip64 : Bool) (crc us cs : Nat) : Prop where
  signature : OccursAt data [0x50, 0x4B, 3, 4] off
  streamed : (fieldAt data (off + 6) 2).testBit 3 = true
  crc : fieldAt data (off + 14) 4 = crc
  inFields : noZip64 = true → fieldAt data (off + 18) 4 = cs ∧ fieldAt data (off + 22) 4 = us
  inZip64 : noZip64 = false → fieldAt data (off + 18) 4 = 0xFFFFFFFF ∧ fieldAt data (off + 22) 4 = 0xFFFFFFFF ∧
    ∃ i, off + 30 + fieldAt data (off + 26) 2 ≤ i ∧ i + 20 ≤ dataStart data off ∧ OccursAt data [1, 0, 16, 0] i ∧
      fieldAt data (i + 4) 8 = us ∧ fieldAt data (i + 12) 8 = cs

end AsyncZip.Spec
