import Verif.Proofs.Announced
import Verif.Props.Directory
import Verif.Props.Precompressed
/-!
# C97: what the local header of a streamed entry says
-/

namespace AsyncZip
open Spec Wr

/-- The header of a call, however the program goes on. -/
theorem archive_announces (C : Codec) (zw : ZipWriter) (before after : List Op) (e : ZipEntry) (pre : Bool) (evs1 evs : List Ev)
    (acts : List StreamAct) (fin : StreamEnd) (rs : List (Res Nat)) (r : Option (Res Unit))
    (h : (runArchive C zw (before ++ .stream e pre evs1 acts fin :: after) evs).1[before.length]? =
      some (.stream (.ok ()) rs r)) :
    Announces (runArchive C zw (before ++ .stream e pre evs1 acts fin :: after) evs).2.2.writer.sink.bytes
      (runOps C zw before).2.writer.sink.bytes.length zw.forceNoZip64 e.crc32.toNat e.uncompressedSize.toNat
      e.compressedSize.toNat := by
  have hlen := runOps_length C before zw
  have hforce := (runOps_ext C before zw).force
  generalize hz : runOps C zw before = b at *
  obtain ⟨rs1, zw1⟩ := b
  simp only at hlen hforce
  have hrun : runOps C zw (before ++ .stream e pre evs1 acts fin :: after) =
      (rs1 ++ (runOps C zw1 (.stream e pre evs1 acts fin :: after)).1,
        (runOps C zw1 (.stream e pre evs1 acts fin :: after)).2) := by
    rw [runOps_append, hz]
  have h1 : (runArchive C zw (before ++ .stream e pre evs1 acts fin :: after) evs).1 =
      rs1 ++ (runOps C zw1 (.stream e pre evs1 acts fin :: after)).1 := by
    unfold runArchive
    rw [hrun]
  rw [h1, List.getElem?_append_right (by omega), hlen, Nat.sub_self] at h
  have h2 : (runOp C zw1 (.stream e pre evs1 acts fin)).1 = .stream (.ok ()) rs r := by
    simp only [runOps, List.getElem?_cons_zero, Option.some.injEq] at h
    exact h
  have h3 : (runArchive C zw (before ++ .stream e pre evs1 acts fin :: after) evs).2.2 =
      (closeArchive ⟨(runOps C zw1 (.stream e pre evs1 acts fin :: after)).2, evs⟩).2.zw := by
    unfold runArchive
    rw [hrun]
  obtain ⟨y, hy, _⟩ := (Grows.closeArchive ⟨(runOps C zw1 (.stream e pre evs1 acts fin :: after)).2, evs⟩).bytes
  have h4 : (runOps C zw1 (.stream e pre evs1 acts fin :: after)).2 =
      (runOps C (runOp C zw1 (.stream e pre evs1 acts fin)).2 after).2 := rfl
  obtain ⟨x, hx, _⟩ := (runOps_ext C after (runOp C zw1 (.stream e pre evs1 acts fin)).2).bytes
  rw [h3, hy]
  simp only [h4]
  rw [hx, List.append_assoc, ← hforce]
  exact runOp_announces h2 _

/-- C97. The local header of an entry that is streamed has the checksum and the sizes that the entry passed in happens to carry,
right or wrong, although a data descriptor follows with those of the data: whatever else the program does before and after,
whatever the sink does, and also if the entry is abandoned or the archive never closed. Sizes stand in the header itself with
`force_no_zip64` and in a ZIP64 field otherwise. -/
theorem C97_header (C : Codec) (zw : ZipWriter) (ops : List Op) (evs : List Ev) (k : Nat) (e : ZipEntry) (pre : Bool)
    (evs1 : List Ev) (acts : List StreamAct) (fin : StreamEnd) (rs : List (Res Nat)) (r : Option (Res Unit))
    (hop : ops[k]? = some (.stream e pre evs1 acts fin))
    (h : (runArchive C zw ops evs).1[k]? = some (.stream (.ok ()) rs r)) :
    Announces (runArchive C zw ops evs).2.2.writer.sink.bytes (runOps C zw (ops.take k)).2.writer.sink.bytes.length
      zw.forceNoZip64 e.crc32.toNat e.uncompressedSize.toNat e.compressedSize.toNat := by
  obtain ⟨hk, hop⟩ := List.getElem?_eq_some_iff.1 hop
  have hsplit : ops = ops.take k ++ .stream e pre evs1 acts fin :: ops.drop (k + 1) := by
    rw [← hop, ← List.drop_eq_getElem_cons hk, List.take_append_drop]
  have hlen : (ops.take k).length = k := by rw [List.length_take]; omega
  have := archive_announces C zw (ops.take k) (ops.drop (k + 1)) e pre evs1 evs acts fin rs r (by rw [← hsplit, hlen]; exact h)
  rwa [← hsplit] at this

/-- C97, the part of the documentation that holds: an entry that carries no checksum and no sizes (as made by
`ZipEntryBuilder::new`, unless they are set) has a local header with a null checksum and without sizes. -/
theorem C97_null_partial (C : Codec) (zw : ZipWriter) (ops : List Op) (evs : List Ev) (k : Nat) (e : ZipEntry) (pre : Bool)
    (evs1 : List Ev) (acts : List StreamAct) (fin : StreamEnd) (rs : List (Res Nat)) (r : Option (Res Unit))
    (hop : ops[k]? = some (.stream e pre evs1 acts fin))
    (h : (runArchive C zw ops evs).1[k]? = some (.stream (.ok ()) rs r))
    (hcrc : e.crc32 = 0) (hus : e.uncompressedSize = 0) (hcs : e.compressedSize = 0) :
    Announces (runArchive C zw ops evs).2.2.writer.sink.bytes (runOps C zw (ops.take k)).2.writer.sink.bytes.length
      zw.forceNoZip64 0 0 0 := by
  have := C97_header C zw ops evs k e pre evs1 acts fin rs r hop h
  rw [hcrc, hus, hcs] at this
  exact this

namespace Samples

/-- What `packedStream` leaves. -/
def packedBytes : Bytes :=
  [80, 75, 3, 4, 20, 0, 8, 8, 8, 0, 0, 0, 0, 0, 59, 253, 11, 75, 255, 255, 255, 255, 255, 255, 255, 255, 1, 0, 20, 0,
  98, 1, 0, 16, 0, 3, 0, 0, 0, 0, 0, 0, 0, 0, 0, 0, 0, 0, 0, 0, 0, 1, 7, 1, 8, 1, 9, 0, 80, 75, 7, 8, 59, 253, 11, 75,
  255, 255, 255, 255, 255, 255, 255, 255, 80, 75, 1, 2, 63, 3, 20, 0, 8, 8, 8, 0, 0, 0, 0, 0, 59, 253, 11, 75, 255,
  255, 255, 255, 255, 255, 255, 255, 1, 0, 28, 0, 0, 0, 0, 0, 0, 0, 0, 0, 164, 1, 255, 255, 255, 255, 98, 1, 0, 24, 0,
  3, 0, 0, 0, 0, 0, 0, 0, 7, 0, 0, 0, 0, 0, 0, 0, 0, 0, 0, 0, 0, 0, 0, 0, 80, 75, 6, 6, 44, 0, 0, 0, 0, 0, 0, 0, 63,
  3, 46, 0, 0, 0, 0, 0, 0, 0, 0, 0, 1, 0, 0, 0, 0, 0, 0, 0, 1, 0, 0, 0, 0, 0, 0, 0, 75, 0, 0, 0, 0, 0, 0, 0, 74, 0, 0,
  0, 0, 0, 0, 0, 80, 75, 6, 7, 0, 0, 0, 0, 149, 0, 0, 0, 0, 0, 0, 0, 1, 0, 0, 0, 80, 75, 5, 6, 0, 0, 0, 0, 1, 0, 1, 0,
  75, 0, 0, 0, 74, 0, 0, 0, 0, 0]

end Samples

/-- C97. The documentation of `write_entry_stream_precompressed` contradicts itself: "CRC, and uncompressed size must be set" and
"the generated Local File Header will be invalid, with no compressed size, uncompressed size, and a null CRC". The header has what
was set. -/
theorem C97_null_fails : ∃ (zw : ZipWriter) (ops : List Op) (bytes : Bytes),
    (runArchive Samples.markCodec zw ops Samples.eager).1 = [.stream (.ok ()) [.ok 3, .ok 4] (some (.ok ()))] ∧
    (runArchive Samples.markCodec zw ops Samples.eager).2.1 = .ok ⟨bytes, 0, 0⟩ ∧
    fieldAt bytes 14 4 = 0x4B0BFD3B ∧ OccursAt bytes [1, 0, 16, 0, 3] 31 := by
  exact ⟨Samples.fresh, Samples.packedStream, Samples.packedBytes, by decide +kernel, by decide +kernel, by decide +kernel,
    by unfold OccursAt; decide +kernel⟩

/-- C97, concretely: an entry whose checksum and size were set. -/
example : Announces (runArchive Samples.markCodec Samples.fresh Samples.plainStream Samples.eager).2.2.writer.sink.bytes
    (runOps Samples.markCodec Samples.fresh (Samples.plainStream.take 0)).2.writer.sink.bytes.length Samples.fresh.forceNoZip64
    Samples.knownEntry.crc32.toNat Samples.knownEntry.uncompressedSize.toNat Samples.knownEntry.compressedSize.toNat ∧
    Samples.knownEntry.crc32.toNat = 0x4B0BFD3B := by
  have h : (runArchive Samples.markCodec Samples.fresh Samples.plainStream Samples.eager).1 =
      [.stream (.ok ()) [.ok 3] (some (.ok ()))] := by decide +kernel
  refine ⟨C97_header Samples.markCodec Samples.fresh Samples.plainStream Samples.eager 0 Samples.knownEntry false Samples.eager
    [.write [7, 8, 9] [.pending, .accept 5]] (.close Samples.eager) [.ok 3] (some (.ok ())) rfl ?_, by decide +kernel⟩
  rw [h]
  rfl

/-- C97, concretely: the third call of the program streams an entry that carries neither. -/
example : Announces (runArchive Samples.markCodec Samples.fresh Samples.program Samples.eager).2.2.writer.sink.bytes
    (runOps Samples.markCodec Samples.fresh (Samples.program.take 2)).2.writer.sink.bytes.length Samples.fresh.forceNoZip64
    0 0 0 := by
  refine C97_null_partial Samples.markCodec Samples.fresh Samples.program Samples.eager 2 Samples.deflatedEntry false Samples.eager
    [.write [7, 8, 9] [.pending, .accept 2], .flush Samples.eager, .write [9] [.drain 1, .accept 5]] (.close Samples.eager)
    [.ok 2, .ok 0, .ok 1] (some (.ok ())) rfl ?_ (by decide) (by decide) (by decide)
  rw [Samples.program_archive.1]
  rfl

end AsyncZip
