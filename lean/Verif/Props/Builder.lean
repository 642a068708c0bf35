import Verif.Spec.Builder
import Verif.Props.Metadata
/-!
# C90: the entry builder
-/

namespace AsyncZip
open Spec

/-- One call on a `ZipEntryBuilder`, `src/entry/builder.rs:25-108`. -/
def ZipEntry.set (e : ZipEntry) : Setter → ZipEntry
  | .filename v => e.withFilename v
  | .compression v => e.withCompression v
  | .crc32 v => e.withCrc32 v
  | .compressedSize v => e.withCompressedSize v
  | .uncompressedSize v => e.withUncompressedSize v
  | .deflateOption v => e.withDeflateOption v
  | .attributeCompatibility v => e.withAttributeCompatibility v
  | .lastModificationDate v => e.withLastModificationDate v
  | .internalFileAttribute v => e.withInternalFileAttribute v
  | .externalFileAttribute v => e.withExternalFileAttribute v
  | .extraFields v => e.withExtraFields v
  | .comment v => e.withComment v
  | .unixPermissions v => e.withUnixPermissions v

/-- A chain of calls: `From<ZipEntry> for ZipEntryBuilder`, the calls, and `build`, `src/entry/builder.rs:13-17, 110-126`. The
conversions only wrap and unwrap. -/
def ZipEntry.setAll (e : ZipEntry) (calls : List Setter) : ZipEntry := calls.foldl ZipEntry.set e

theorem lastSet_cons {α : Type} (f : Setter → Option α) (a : α) (c : Setter) (cs : List Setter) :
    lastSet f a (c :: cs) = lastSet f ((f c).getD a) cs := by
  unfold lastSet
  rw [List.reverse_cons, List.findSome?_append]
  cases List.findSome? f cs.reverse with
  | some v => rfl
  | none => cases h : f c <;> simp [List.findSome?, h]

theorem set_low (e : ZipEntry) (c : Setter) : (e.set c).externalFileAttribute.toNat % 2 ^ 16 =
    (c.low?).getD (e.externalFileAttribute.toNat % 2 ^ 16) := by
  cases c with
  | unixPermissions v =>
    show (e.withUnixPermissions v).externalFileAttribute.toNat % 2 ^ 16 = e.externalFileAttribute.toNat % 2 ^ 16
    rw [(C13_unix_permissions e v v).2.1]
    omega
  | _ => rfl

theorem set_high (e : ZipEntry) (c : Setter) : (e.set c).externalFileAttribute.toNat / 2 ^ 16 =
    (c.high?).getD (e.externalFileAttribute.toNat / 2 ^ 16) := by
  cases c with
  | unixPermissions v =>
    show (e.withUnixPermissions v).externalFileAttribute.toNat / 2 ^ 16 = v.toNat
    rw [(C13_unix_permissions e v v).2.1]
    omega
  | _ => rfl

/-- C90. Whatever is called, in whatever order and however often, on a new builder or on one made from an entry: the entry has in
every field what was set last and otherwise what it had. The two halves of the external attribute are fields of their own. -/
theorem C90_built (e : ZipEntry) (calls : List Setter) : Built e calls (e.setAll calls) := by
  induction calls generalizing e with
  | nil => constructor <;> rfl
  | cons c cs ih =>
    obtain ⟨h1, h2, h3, h4, h5, h6, h7, h8, h9, h10, h11, h12, h13, h14⟩ := ih (e.set c)
    refine ⟨?_, ?_, ?_, ?_, ?_, ?_, ?_, ?_, ?_, ?_, ?_, ?_, ?_, ?_⟩
    · rw [lastSet_cons]; exact h1.trans (by cases c <;> rfl)
    · rw [lastSet_cons]; exact h2.trans (by cases c <;> rfl)
    · rw [lastSet_cons]; exact h3.trans (by cases c <;> rfl)
    · rw [lastSet_cons]; exact h4.trans (by cases c <;> rfl)
    · rw [lastSet_cons]; exact h5.trans (by cases c <;> rfl)
    · rw [lastSet_cons]
      refine h6.trans (by
        cases c with
        | deflateOption o => cases o <;> rfl
        | _ => rfl)
    · rw [lastSet_cons]
    · rw [lastSet_cons]; exact h8.trans (by cases c <;> rfl)
    · rw [lastSet_cons]; exact h9.trans (by cases c <;> rfl)
    · rw [lastSet_cons, ← set_low]; exact h10
    · rw [lastSet_cons, ← set_high]; exact h11
    · rw [lastSet_cons]; exact h12.trans (by cases c <;> rfl)
    · rw [lastSet_cons]; exact h13.trans (by cases c <;> rfl)
    · exact h14.trans (by cases c <;> rfl)

/-- C90. That says everything about the entry: there is no other entry of which it is true. -/
theorem C90_determined (e : ZipEntry) (calls : List Setter) (e' : ZipEntry) (h : Built e calls e') : e' = e.setAll calls := by
  obtain ⟨h1, h2, h3, h4, h5, h6, h7, h8, h9, h10, h11, h12, h13, h14⟩ := h
  obtain ⟨k1, k2, k3, k4, k5, k6, k7, k8, k9, k10, k11, k12, k13, k14⟩ := C90_built e calls
  have hx : e'.externalFileAttribute = (e.setAll calls).externalFileAttribute := by
    apply UInt32.toNat_inj.1
    have a := h10.trans k10.symm
    have b := h11.trans k11.symm
    omega
  generalize e.setAll calls = g at *
  cases e'
  cases g
  simp only [ZipEntry.mk.injEq]
  exact ⟨h1.trans k1.symm, h2.trans k2.symm, h6.trans k6.symm, h3.trans k3.symm, h5.trans k5.symm, h4.trans k4.symm,
    trivial, h8.trans k8.symm, h9.trans k9.symm, hx, h12.trans k12.symm, h13.trans k13.symm, h14.trans k14.symm⟩

/-- C90. The permissions that the entry then reports are those set last, by either of the two calls. -/
theorem C90_permissions (e : ZipEntry) (calls : List Setter) : ∃ m, (e.setAll calls).unixPermissions = some m ∧
    m.toNat = lastSet Setter.high? (e.externalFileAttribute.toNat / 2 ^ 16) calls := by
  obtain ⟨m, h, hm⟩ := C13_permissions_of_attribute (e.setAll calls)
  exact ⟨m, h, hm.trans (C90_built e calls).high⟩

/-- Permissions, then an attribute, then permissions: the lower half is that of the attribute. -/
example : ((ZipEntry.new ⟨.utf8, [97], none⟩ .stored).setAll
    [.unixPermissions 0o777, .externalFileAttribute 0x12345678, .crc32 7, .unixPermissions 0o644, .crc32 8]).externalFileAttribute
      = 0x01A45678 ∧
    lastSet Setter.low? 0 [.unixPermissions 0o777, .externalFileAttribute 0x12345678, .unixPermissions 0o644] = 0x5678 ∧
    lastSet Setter.high? 0 [.unixPermissions 0o777, .externalFileAttribute 0x12345678, .unixPermissions 0o644] = 0o644 := by
  decide

/-- The other way round the attribute wins. -/
example : ((ZipEntry.new ⟨.utf8, [97], none⟩ .stored).setAll [.unixPermissions 0o777, .externalFileAttribute 0x12345678]).unixPermissions
    = some 0x1234 := by decide

end AsyncZip
