import Verif.Spec.Layout
import Verif.Model.Types
/-!
# Specification of extra-field blocks (APPNOTE 4.5.1, 4.5.3, 4.6.8, 4.6.9)
-/

namespace AsyncZip.Spec

/-- `b` is a sequence of (id, size, content) blocks followed by `tail`. -/
inductive Blocks : List UInt8 → List (Nat × List UInt8) → List UInt8 → Prop
  | nil (tail : List UInt8) : Blocks tail [] tail
  | cons (b : List UInt8) (rs : List (Nat × List UInt8)) (tail : List UInt8)
      (hlen : 4 + fieldAt b 2 2 ≤ b.length)
      (hrest : Blocks (b.drop (4 + fieldAt b 2 2)) rs tail) :
      Blocks b ((fieldAt b 0 2, (b.drop 4).take (fieldAt b 2 2)) :: rs) tail

/-- The block at the head of `b` claims more bytes than remain. -/
def Overlong (b : List UInt8) : Prop := 4 < b.length ∧ b.length < 4 + fieldAt b 2 2

/-- A decoded field faithfully represents the block `(id, content)`. -/
def Represents : ExtraField → Nat × List UInt8 → Prop
  | .zip64 f, (id, content) =>
    id = 0x0001 ∧ f.headerId.toNat = id ∧
      -- the values present, in order, are a prefix of the content
      ∃ rest, content =
        (f.uncompressedSize.elim [] fun x => leBytes 8 x.toNat) ++ (f.compressedSize.elim [] fun x => leBytes 8 x.toNat)
          ++ (f.relativeHeaderOffset.elim [] fun x => leBytes 8 x.toNat)
          ++ (f.diskStartNumber.elim [] fun x => leBytes 4 x.toNat) ++ rest
  | .unicodeComment (.v1 crc s), (id, content) => id = 0x6375 ∧ content = [1] ++ leBytes 4 crc.toNat ++ s
  | .unicodeComment (.unknown v d), (id, content) => id = 0x6375 ∧ v ≠ 1 ∧ content = v :: d
  | .unicodePath (.v1 crc s), (id, content) => id = 0x7075 ∧ content = [1] ++ leBytes 4 crc.toNat ++ s
  | .unicodePath (.unknown v d), (id, content) => id = 0x7075 ∧ v ≠ 1 ∧ content = v :: d
  | .unknown f, (id, content) =>
    id ≠ 0x0001 ∧ id ≠ 0x6375 ∧ id ≠ 0x7075 ∧ f.headerId.toNat = id ∧ f.dataSize.toNat = content.length
      ∧ f.content = content

/-- Extra fields an application can reasonably ask to be stored in a header with 32-bit sizes `us`, `cs`: a ZIP64 field
carries a 64-bit size exactly for the saturated 32-bit sizes (APPNOTE 4.5.3) and no disk number; Info-ZIP content fits
in 16 bits; an unknown field has an id of its own and a truthful size. -/
def WellFormed (us cs : UInt32) : ExtraField → Prop
  | .zip64 f =>
    f.headerId = 0x0001 ∧ (f.uncompressedSize.isSome ↔ us = 0xFFFFFFFF) ∧ (f.compressedSize.isSome ↔ cs = 0xFFFFFFFF)
      ∧ f.diskStartNumber = none
  | .unicodeComment (.v1 _ s) => s.length ≤ 65530
  | .unicodeComment (.unknown v d) => v ≠ 1 ∧ d.length ≤ 65534
  | .unicodePath (.v1 _ s) => s.length ≤ 65530
  | .unicodePath (.unknown v d) => v ≠ 1 ∧ d.length ≤ 65534
  | .unknown f =>
    f.headerId ≠ 0x0001 ∧ f.headerId ≠ 0x6375 ∧ f.headerId ≠ 0x7075 ∧ f.dataSize.toNat = f.content.length

/-- The field has no content bytes. -/
def EmptyContent : ExtraField → Prop
  | .zip64 f => f.uncompressedSize = none ∧ f.compressedSize = none ∧ f.relativeHeaderOffset = none
      ∧ f.diskStartNumber = none
  | .unknown f => f.content = []
  | _ => False

/-- Number of ZIP64 fields that carry a disk number. -/
def diskFields : List ExtraField → Nat
  | [] => 0
  | .zip64 f :: fs => (if f.diskStartNumber.isSome then 1 else 0) + diskFields fs
  | _ :: fs => diskFields fs

instance (f : ExtraField) : Decidable (EmptyContent f) := by
  cases f <;> unfold EmptyContent <;> infer_instance

instance (us cs : UInt32) (f : ExtraField) : Decidable (WellFormed us cs f) := by
  cases f with
  | zip64 f => unfold WellFormed; infer_instance
  | unicodeComment f => cases f <;> unfold WellFormed <;> infer_instance
  | unicodePath f => cases f <;> unfold WellFormed <;> infer_instance
  | unknown f => unfold WellFormed; infer_instance

end AsyncZip.Spec
