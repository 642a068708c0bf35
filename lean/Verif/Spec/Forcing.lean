import Verif.Model.Forcing
/-!
# What forcing ZIP64 may change
-/

namespace AsyncZip.Spec

/-- The calls but for those that force ZIP64. -/
def unforced : List ForceCall → List ForceCall
  | [] => []
  | .zip64 :: cs => unforced cs
  | c :: cs => c :: unforced cs

/-- ZIP64 is forced at some time. -/
def Forces (cs : List ForceCall) : Prop := .zip64 ∈ cs

/-- The second archive is the first with the ZIP64 end record and locator, 76 bytes that begin with the record's signature, put
directly before the classic end record with its comment of `n` bytes. -/
def PlusZip64End (n : Nat) (a b : List UInt8) : Prop :=
  ∃ front x stop, a = front ++ stop ∧ b = front ++ (x ++ stop) ∧ x.length = 76 ∧ [0x50, 0x4B, 6, 6] <+: x ∧
    [0x50, 0x4B, 5, 6] <+: stop ∧ stop.length = 22 + n

end AsyncZip.Spec
