import Verif.Proofs.CrcPoly
import Verif.Props.Reading
import Verif.Props.Entries
/-!
# C76: the checksum is CRC-32
-/

namespace AsyncZip
open Spec Rd

/-- C76. The checksum of a block of bytes is its CRC-32 as the standards define it, and nothing else is. -/
theorem C76_checksum (b : Bytes) (c : UInt32) : crc32 b = c ↔ IsCrc32 b c :=
  ⟨fun h => h ▸ crc32_is b, fun h => IsCrc32.unique (crc32_is b) h⟩

/-- C76. However the bytes are split between updates of a hasher, it ends with the CRC-32 of all of them. -/
theorem C76_pieces (pieces : List Bytes) : IsCrc32 pieces.flatten (pieces.foldl Hasher.update Hasher.new).finalize := by
  have : ∀ (pieces : List Bytes) (h : Hasher), pieces.foldl Hasher.update h = h.update pieces.flatten := by
    intro pieces
    induction pieces with
    | nil => intro h; rfl
    | cons p ps ih => intro h; rw [List.foldl_cons, ih, Hasher.update_append, List.flatten_cons]
  rw [this]
  exact crc32_is _

/-- C76. What a checked read of a fresh entry reader returns has the recorded CRC-32. -/
theorem C76_checked (C : Codec) (m : Compression) (size chunk : Nat) (hc : 0 < chunk) (crc : UInt32) (s s' : RState)
    (b : Bytes) (er : EntryReader) (h : (EntryReader.new m size).readToEndChecked C chunk crc s = (.ok (b, er), s')) :
    IsCrc32 b crc :=
  (C76_checksum b crc).1 (C24_ok_matches C m size chunk hc crc s s s' _ er [] b (.refl _ _) h).1

/-- C76. The record of a listed entry, written in one go or streamed, has the CRC-32 of its data. The caller's extra fields
are truthful and not ZIP64. -/
theorem C76_written (C : Codec) (sink sink' : Sink) (zw : ZipWriter) (h : Created sink zw) (hs : sink.bytes = [])
    (ops : List Op) (evs : List Ev) (hc : (runArchive C zw ops evs).2.1 = .ok sink')
    (hown : ∀ op ∈ ops, ∀ f ∈ userFields op, OwnField f) (hsize : sink'.bytes.length < 2 ^ 64)
    (k : Nat) (op : Op) (r : OpResult) (hop : ops[k]? = some op) (hr : (runArchive C zw ops evs).1[k]? = some r)
    (hl : ¬ NotListed r) (e : ZipEntry) (d : Bytes) (hw : Wrote op r e d) :
    ∃ j dir stop js crc, DirectoryOf sink'.bytes (runArchive C zw ops evs).2.2.isZip64 (archiveComment ops) dir stop js ∧
      j ∈ js ∧ fieldAt sink'.bytes (j + 16) 4 = crc.toNat ∧ IsCrc32 d crc := by
  obtain ⟨l, off, j, dir, stop, js, ha, h1, h2, h3, h4, h5⟩ := listed_entry h hs hc hown hsize hop hr hl
  refine ⟨j, dir, stop, js, crc32 d, h1, h2, ?_, crc32_is d⟩
  cases hw with
  | whole e d evs r => cases ha with | whole => exact h4.crc
  | stream e evs evs' acts rs r hok => cases ha with | stream => exact h4.crc

/-- The check value of the standards: the CRC-32 of "123456789" is CBF43926. -/
example : IsCrc32 [49, 50, 51, 52, 53, 54, 55, 56, 57] 0xCBF43926 := (C76_checksum _ _).1 (by decide +kernel)

/-- And it is no other number. -/
example : ¬ IsCrc32 [49, 50, 51, 52, 53, 54, 55, 56, 57] 0xCBF43927 := fun h =>
  absurd ((C76_checksum _ _).2 h) (by decide +kernel)

/-- A hasher fed "hi" in two pieces. -/
example : IsCrc32 [104, 105] (([[104], [], [105]] : List Bytes).foldl Hasher.update Hasher.new).finalize :=
  C76_pieces [[104], [], [105]]

/-- A checked read of two bytes. -/
example : ∃ er s', (EntryReader.new .stored 2).readToEndChecked Samples.lengthCodec 5 3633523372 ⟨[104, 105, 1], 0, none, []⟩
    = (.ok ([104, 105], er), s') ∧ IsCrc32 [104, 105] 3633523372 := by
  have h : ((EntryReader.new .stored 2).readToEndChecked Samples.lengthCodec 5 3633523372 ⟨[104, 105, 1], 0, none, []⟩).1.map
      Prod.fst = .ok [104, 105] := by decide +kernel
  cases hx : (EntryReader.new .stored 2).readToEndChecked Samples.lengthCodec 5 3633523372 ⟨[104, 105, 1], 0, none, []⟩ with
  | mk a s' =>
    rw [hx] at h
    cases a with
    | error _ => cases h
    | ok a =>
      obtain ⟨b, er⟩ := a
      cases h
      exact ⟨er, s', rfl, C76_checked _ _ _ _ (by decide) _ _ _ _ _ hx⟩

/-- The third call of the sample program streams `[7, 8, 9]`. -/
example : ∃ j dir stop js crc,
    DirectoryOf Samples.programBytes (runArchive Samples.markCodec Samples.fresh Samples.program Samples.eager).2.2.isZip64
      (archiveComment Samples.program) dir stop js ∧ j ∈ js ∧
    fieldAt Samples.programBytes (j + 16) 4 = UInt32.toNat crc ∧ IsCrc32 [7, 8, 9] crc :=
  C76_written Samples.markCodec
    ⟨[], 0, 0⟩ ⟨Samples.programBytes, 1, 0⟩ Samples.fresh .new rfl Samples.program Samples.eager Samples.program_archive.2.1
    Samples.program_legible.own (by decide +kernel) 2 _ (.stream (.ok ()) [.ok 2, .ok 0, .ok 1] (some (.ok ()))) rfl
    (by rw [Samples.program_archive.1]; rfl) (listed_stream (Or.inl rfl)) _ _ (.stream _ _ _ _ _ _ (Or.inr Samples.acts_ok))

end AsyncZip
