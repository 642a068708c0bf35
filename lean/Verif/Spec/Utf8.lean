/-!
# Specification of UTF-8 (RFC 3629)
-/

namespace AsyncZip.Spec

/-- Unicode scalar values: code points other than surrogates. -/
def IsScalar (v : Nat) : Prop := v < 0xD800 ∨ (0xE000 ≤ v ∧ v < 0x110000)

/-- The UTF-8 encoding of a scalar value, RFC 3629 section 3. -/
def encodeScalar (v : Nat) : List UInt8 :=
  if v < 0x80 then [UInt8.ofNat v]
  else if v < 0x800 then [UInt8.ofNat (0xC0 + v / 64), UInt8.ofNat (0x80 + v % 64)]
  else if v < 0x10000 then
    [UInt8.ofNat (0xE0 + v / 4096), UInt8.ofNat (0x80 + v / 64 % 64), UInt8.ofNat (0x80 + v % 64)]
  else
    [UInt8.ofNat (0xF0 + v / 262144), UInt8.ofNat (0x80 + v / 4096 % 64), UInt8.ofNat (0x80 + v / 64 % 64),
      UInt8.ofNat (0x80 + v % 64)]

/-- `b` is the UTF-8 encoding of some text. -/
def IsUtf8 (b : List UInt8) : Prop := ∃ text : List Nat, (∀ v ∈ text, IsScalar v) ∧ b = text.flatMap encodeScalar

end AsyncZip.Spec
