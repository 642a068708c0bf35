import Verif.Spec.Metadata
import Verif.Model.Write
/-!
# C08, C13, C14: identifiers, permissions, versions
-/

namespace AsyncZip
open Spec

/-! ## C08 -/

/-- C08. Encoding follows the APPNOTE table, decoding inverts it exactly, and every number outside the table is rejected
with an error carrying it. -/
theorem C08_compression_ids :
    (∀ c, (c, c.toU16.toNat) ∈ methodTable) ∧
    (∀ c v, Compression.tryFrom v = .ok c ↔ (c, v.toNat) ∈ methodTable) ∧
    (∀ v : UInt16, (∀ c, (c, v.toNat) ∉ methodTable) →
      Compression.tryFrom v = .error (.err (.compressionNotSupported v))) ∧
    (∀ c, Compression.tryFrom c.toU16 = .ok c) ∧
    (∀ c c' : Compression, c.toU16 = c'.toU16 → c = c') := by
  have hn : ∀ (v : UInt16) (n : Nat), n < 65536 → (v.toNat = n ↔ v = UInt16.ofNat n) := by
    intro v n hn
    rw [← UInt16.toNat_inj, UInt16.toNat_ofNat']
    omega
  refine ⟨by intro c; cases c <;> decide, ?_, ?_, by intro c; cases c <;> rfl, by
    intro c c' h; cases c <;> cases c' <;> first | rfl | (exact absurd h (by decide))⟩
  · intro c v
    simp only [methodTable, List.mem_cons, Prod.mk.injEq, List.not_mem_nil, or_false]
    rw [hn v 0 (by decide), hn v 8 (by decide), hn v 9 (by decide), hn v 12 (by decide), hn v 14 (by decide),
      hn v 93 (by decide), hn v 95 (by decide)]
    unfold Compression.tryFrom
    constructor
    · intro h
      repeat' split at h
      all_goals first | (injection h with h; subst h; simp_all) | cases h
    · rintro (⟨rfl, rfl⟩ | ⟨rfl, rfl⟩ | ⟨rfl, rfl⟩ | ⟨rfl, rfl⟩ | ⟨rfl, rfl⟩ | ⟨rfl, rfl⟩ | ⟨rfl, rfl⟩) <;> rfl
  · intro v h
    have : ∀ c ∈ methodTable, v ≠ UInt16.ofNat c.2 := by
      intro c hc he
      refine h c.1 ?_
      have : c.2 < 65536 := by
        simp only [methodTable, List.mem_cons, List.not_mem_nil, or_false] at hc
        rcases hc with rfl | rfl | rfl | rfl | rfl | rfl | rfl <;> decide
      rw [(hn v c.2 this).2 he]
      exact hc
    unfold Compression.tryFrom
    have a0 : v ≠ 0 := this (.stored, 0) (by decide)
    have a1 : v ≠ 8 := this (.deflate, 8) (by decide)
    have a2 : v ≠ 9 := this (.deflate64, 9) (by decide)
    have a3 : v ≠ 12 := this (.bz, 12) (by decide)
    have a4 : v ≠ 14 := this (.lzma, 14) (by decide)
    have a5 : v ≠ 93 := this (.zstd, 93) (by decide)
    have a6 : v ≠ 95 := this (.xz, 95) (by decide)
    simp only [a0, a1, a2, a3, a4, a5, a6, if_false]

example : ∀ c, (c, (13 : UInt16).toNat) ∉ methodTable := by intro c; cases c <;> decide

/-- C08. The same for the attribute host. -/
theorem C08_attribute_ids :
    (∀ a, (a, a.toU16.toNat) ∈ hostTable) ∧
    (∀ a v, AttributeCompatibility.tryFrom v = .ok a ↔ (a, v.toNat) ∈ hostTable) ∧
    (∀ v : UInt16, (∀ a, (a, v.toNat) ∉ hostTable) →
      AttributeCompatibility.tryFrom v = .error (.err (.attributeCompatibilityNotSupported v))) := by
  have hn : ∀ v : UInt16, v.toNat = 3 ↔ v = 3 := by
    intro v
    rw [← UInt16.toNat_inj]
    rfl
  refine ⟨by intro a; cases a; decide, ?_, ?_⟩
  · intro a v
    cases a
    simp only [hostTable, List.mem_cons, Prod.mk.injEq, List.not_mem_nil, or_false, true_and, hn]
    unfold AttributeCompatibility.tryFrom
    split <;> simp_all
  · intro v h
    have := h .unix
    simp only [hostTable, List.mem_cons, Prod.mk.injEq, List.not_mem_nil, or_false, true_and, hn] at this
    unfold AttributeCompatibility.tryFrom
    rw [if_neg this]

/-! ## C13 -/

/-- C13. Permissions set are read back; they occupy the upper half of the external attribute and the lower half is kept;
nothing else of the entry changes; the last setting wins. -/
theorem C13_unix_permissions (e : ZipEntry) (m m' : UInt16) :
    (e.withUnixPermissions m).unixPermissions = some m ∧
    (e.withUnixPermissions m).externalFileAttribute.toNat = m.toNat * 2 ^ 16 + e.externalFileAttribute.toNat % 2 ^ 16 ∧
    { e.withUnixPermissions m with externalFileAttribute := e.externalFileAttribute } = e ∧
    (e.withUnixPermissions m').withUnixPermissions m = e.withUnixPermissions m := by
  have hval : ∀ (e : ZipEntry) (m : UInt16), (e.withUnixPermissions m).externalFileAttribute.toNat
      = m.toNat * 2 ^ 16 + e.externalFileAttribute.toNat % 2 ^ 16 := by
    intro e m
    have hm := m.toNat_lt
    unfold ZipEntry.withUnixPermissions
    simp only [UInt32.toNat_or, UInt32.toNat_and, UInt32.toNat_shiftLeft, UInt16.toNat_toUInt32, UInt32.reduceToNat,
      Nat.reduceMod]
    rw [show (65535 : Nat) = 2 ^ 16 - 1 from rfl, Nat.and_two_pow_sub_one_eq_mod, Nat.shiftLeft_eq,
      Nat.mod_eq_of_lt (show m.toNat * 2 ^ 16 < 2 ^ 32 by omega), Nat.or_comm, ← Nat.shiftLeft_eq,
      ← Nat.shiftLeft_add_eq_or_of_lt (Nat.mod_lt _ (by decide)), Nat.shiftLeft_eq]
  refine ⟨?_, hval e m, ?_, ?_⟩
  · show some _ = _
    congr 1
    apply UInt16.toNat_inj.1
    rw [UInt32.toNat_toUInt16, UInt32.toNat_shiftRight, hval e m]
    have hm := m.toNat_lt
    simp only [UInt32.reduceToNat, Nat.reduceMod, Nat.shiftRight_eq_div_pow]
    omega
  · rfl
  · have h : ((e.withUnixPermissions m').withUnixPermissions m).externalFileAttribute
        = (e.withUnixPermissions m).externalFileAttribute := by
      apply UInt32.toNat_inj.1
      rw [hval, hval, hval]
      omega
    show { e with externalFileAttribute := ((e.withUnixPermissions m').withUnixPermissions m).externalFileAttribute } = _
    rw [h]
    rfl

/-- C13. Reading permissions of any attribute gives its upper half. -/
theorem C13_permissions_of_attribute (e : ZipEntry) :
    ∃ m, e.unixPermissions = some m ∧ m.toNat = e.externalFileAttribute.toNat / 2 ^ 16 := by
  refine ⟨_, rfl, ?_⟩
  have := e.externalFileAttribute.toNat_lt
  rw [UInt32.toNat_toUInt16, UInt32.toNat_shiftRight]
  simp only [UInt32.reduceToNat, Nat.reduceMod, Nat.shiftRight_eq_div_pow]
  omega

/-! ## C14 -/

/-- `ends_with('/')` is what the specification calls naming a directory. -/
theorem getLast_slash (b : Bytes) : (b.getLast? == some 0x2F) = true ↔ NamesDirectory b := by
  rw [beq_iff_eq, List.getLast?_eq_some_iff]
  rfl

/-- C14 (partial). The version needed is the maximum of what the method and, for UTF-8 named directories, the directory
feature demand; it is never below 10 nor above the version the crate claims to implement.
Missing from the full claim: directories whose name is not UTF-8, see `C14_raw_directory_fails`. -/
theorem C14_version_needed_partial (e : ZipEntry) :
    methodVersion e.compression ≤ (asNeededToExtract e).toNat ∧ 10 ≤ (asNeededToExtract e).toNat ∧
    (asNeededToExtract e).toNat ≤ SPEC_VERSION_MADE_BY.toNat ∧
    (e.filename.encoding = .utf8 → NamesDirectory e.filename.raw →
      (asNeededToExtract e).toNat = max (methodVersion e.compression) 20) ∧
    (¬ NamesDirectory e.filename.raw → (asNeededToExtract e).toNat = methodVersion e.compression) := by
  have hd : e.dir = .ok true ↔ e.filename.encoding = .utf8 ∧ NamesDirectory e.filename.raw := by
    unfold ZipEntry.dir ZipString.asStr
    rw [← getLast_slash]
    cases e.filename.encoding with
    | utf8 =>
      show Except.ok _ = Except.ok true ↔ _
      rw [Except.ok.injEq]
      simp
    | raw =>
      show Except.error _ = Except.ok true ↔ _
      simp
  unfold asNeededToExtract
  by_cases h : e.dir = .ok true
  · rw [h]
    have h2 := (hd.1 h).2
    cases e.compression <;> refine ⟨by decide, by decide, by decide, fun _ _ => by decide, fun h => absurd h2 h⟩
  · simp only []
    have hnot : e.filename.encoding = .utf8 → NamesDirectory e.filename.raw → False := fun a b => h (hd.2 ⟨a, b⟩)
    cases e.compression <;> refine ⟨by decide, by decide, by decide, fun a b => (hnot a b).elim, fun _ => by decide⟩

/-- C14, negative. A stored directory entry with a name that is not UTF-8 gets version 10. -/
theorem C14_raw_directory_fails :
    ∃ e : ZipEntry, NamesDirectory e.filename.raw ∧ (asNeededToExtract e).toNat = 10 :=
  ⟨ZipEntry.new (ZipString.new [0xE9, 0x2F] .raw) .stored, ⟨[0xE9], rfl⟩, by decide⟩

/-- C14. Local and central header carry that version, for whole and streamed entries alike. -/
theorem C14_headers_agree (e : ZipEntry) (utf8 : Bool) (cs us o : UInt32) (off : Nat) (h : LocalFileHeader)
    (c : CentralDirectoryRecord) (e' : ZipEntry) :
    (wholeLfh e utf8 = .ok h → h.version = asNeededToExtract e) ∧
    (streamLfh e utf8 cs us = .ok h → h.version = asNeededToExtract e) ∧
    (wholeCdh e' h off = .ok c → c.vNeeded = h.version) ∧
    (streamCdh e' h cs us o = .ok c → c.vNeeded = h.version) := by
  refine ⟨?_, ?_, ?_, ?_⟩ <;> intro hh
  · unfold wholeLfh tryU16 at hh
    split at hh
    · split at hh <;> cases hh
      rfl
    · cases hh
  · unfold streamLfh tryU16 at hh
    split at hh
    · split at hh <;> cases hh
      rfl
    · cases hh
  · unfold wholeCdh tryU16 at hh
    split at hh <;> cases hh
    rfl
  · unfold streamCdh tryU16 at hh
    split at hh <;> cases hh
    rfl

example : (asNeededToExtract (ZipEntry.new (ZipString.new [0x61, 0x2F] .utf8) .stored)).toNat = 20 := by decide
example : ∃ h c, wholeLfh (ZipEntry.new (ZipString.new [0x61, 0x2F] .utf8) .bz) true = .ok h ∧
    wholeCdh (ZipEntry.new (ZipString.new [0x61, 0x2F] .utf8) .bz) h 7 = .ok c ∧ c.vNeeded = 46 :=
  ⟨_, _, rfl, rfl, by decide⟩

end AsyncZip
