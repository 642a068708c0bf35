import Verif.Model.Basic
/-!
# Specification of record layouts, transcribed from APPNOTE.TXT (`/repo/SPECIFICATION.md` 4.3.7, 4.3.12, 4.3.14-4.3.16)

Independent of the model's encoders: a record is a table of (offset, width, value).
-/

namespace AsyncZip.Spec

/-- The little-endian number in the `w` bytes of `b` at offset `off`. -/
def fieldAt (b : List UInt8) (off w : Nat) : Nat :=
  ((List.range w).map fun i => (b.getD (off + i) 0).toNat * 256 ^ i).sum

/-- A field: offset in the record (signature included), width in bytes, value. -/
structure Field where
  off : Nat
  width : Nat
  value : Nat

/-- `b` has length `len` and carries every field of the table at its place. -/
def Conforms (b : List UInt8) (len : Nat) (fields : List Field) : Prop :=
  b.length = len ∧ ∀ f ∈ fields, f.off + f.width ≤ len ∧ fieldAt b f.off f.width = f.value

/-- The fields of a table follow one another without gaps from `start` to `stop`. -/
def Tiles : Nat → List Field → Nat → Prop
  | start, [], stop => start = stop
  | start, f :: fs, stop => f.off = start ∧ Tiles (f.off + f.width) fs stop

/-- APPNOTE 4.4.4: bit 0 encrypted, bit 3 data descriptor, bit 11 UTF-8. -/
def flagWord (encrypted dataDescriptor utf8 : Bool) : Nat :=
  (if encrypted then 2 ^ 0 else 0) + (if dataDescriptor then 2 ^ 3 else 0) + (if utf8 then 2 ^ 11 else 0)

/-- Occurrence of `pat` at position `i` of `b`. -/
def OccursAt (b pat : List UInt8) (i : Nat) : Prop :=
  (b.drop i).take pat.length = pat

end AsyncZip.Spec
