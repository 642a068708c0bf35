import Verif.Proofs.Local
import Verif.Props.Ordinary
import Verif.Proofs.Samples
import Verif.Samples.Streams
import Verif.Props.Reading
/-!
# C37, C43, C44, C46: single entries of a finished archive
-/

namespace AsyncZip
open Spec Rd

/-- A listed call is one of the program's listings. -/
theorem Program.found {C : Codec} {ops : List Op} {rs : List OpResult} {ls : List Listing} (h : Program C ops rs ls) :
    ∀ {k : Nat} {op : Op} {r : OpResult}, ops[k]? = some op → rs[k]? = some r → ¬ NotListed r →
      ∃ (i : Nat) (l : Listing), ls[i]? = some l ∧ Asked C op r l := by
  induction h with
  | nil => intro k op r h1; cases h1
  | @listed op r ops rs l ls ha _ ih =>
    intro k op' r' h1 h2 h3
    cases k with
    | zero => cases h1; cases h2; exact ⟨0, l, rfl, ha⟩
    | succ k =>
      obtain ⟨i, l', h4, h5⟩ := ih h1 h2 h3
      exact ⟨i + 1, l', h4, h5⟩
  | other hn _ ih =>
    intro k op' r' h1 h2 h3
    cases k with
    | zero => cases h2; exact absurd hn h3
    | succ k => exact ih h1 h2 h3

/-- A listed call has a directory record, and a local record where that says. -/
theorem listed_entry {C : Codec} {sink sink' : Sink} {zw : ZipWriter} (h : Created sink zw) (hs : sink.bytes = [])
    {ops : List Op} {evs : List Ev} (hc : (runArchive C zw ops evs).2.1 = .ok sink')
    (hown : ∀ op ∈ ops, ∀ f ∈ userFields op, OwnField f) (hsize : sink'.bytes.length < 2 ^ 64) {k : Nat} {op : Op}
    {r : OpResult} (hop : ops[k]? = some op) (hr : (runArchive C zw ops evs).1[k]? = some r) (hl : ¬ NotListed r) :
    ∃ l off j dir stop js, Asked C op r l ∧
      DirectoryOf sink'.bytes (runArchive C zw ops evs).2.2.isZip64 (archiveComment ops) dir stop js ∧ j ∈ js ∧
      LocalOf sink'.bytes off l ∧ Describes32 sink'.bytes j l ∧
      (¬ Clash off l →
        Declares sink'.bytes j (l.recorded zw.forceNoZip64).1.toNat (l.recorded zw.forceNoZip64).2.toNat off) := by
  obtain ⟨out, ps, offs, cd, z, fin⟩ := finished h hs hc (J := True) (Or.inl trivial)
  obtain ⟨js, h1, h2, _⟩ := fin.onBytes (fun op ho => own_noZip64 (hown op ho)) hsize
  obtain ⟨i, l, hi, ha⟩ := Program.found fin.program hop hr hl
  rw [List.getElem?_map] at hi
  cases hp : ps[i]? with
  | none => rw [hp] at hi; cases hi
  | some p =>
    rw [hp] at hi
    cases hi
    obtain ⟨off, ho, a, x, rest, hout, hal, g⟩ := forall₂_get' fin.placed hp
    have hpm := List.mem_of_getElem? hp
    obtain ⟨j, hj, _, g1, g2⟩ := forall₂_get' h2 (i := i) (a := (p.1, off)) (by
      rw [List.getElem?_zip_eq_some, List.getElem?_map, hp]; exact ⟨rfl, ho⟩)
    have hf := fin.own hown p hpm
    refine ⟨p.1, off, j, _, _, js, ha, by rw [← fin.zip]; exact h1, List.mem_of_getElem? hj, ?_, g1, (g2 hf).1⟩
    refine g.local (a := a) (x := x) (rest := rest ++ (cd ++ endBytes z ps.length cd.length out.length
        (commentBytes (finalComment none ops)))) (own_noZip64 hf) ?_ hal
    rw [fin.bytes, archiveBytes, hout]
    simp only [List.append_assoc]

theorem listed_stream {o : Res Unit} {rs : List (Res Nat)} {r : Res Unit} (h : Listed r) : ¬ NotListed (.stream o rs (some r)) :=
  fun hn => hn h

theorem not_clash {off : Nat} {l : Listing} (h : l.streamed = true) : ¬ Clash off l := fun hc => by
  rw [hc.1] at h
  cases h

theorem ofNat_toNat {n : Nat} (h : n < 2 ^ 64) : (UInt64.ofNat n).toNat = n := by
  rw [UInt64.toNat_ofNat', Nat.mod_eq_of_lt h]

theorem stored_fits {data : Bytes} {off : Nat} {l : Listing} (h : LocalOf data off l) (hd : data.length < 2 ^ 64) :
    l.cs.toNat = l.stored.length := by
  have := congrArg List.length h.stored
  rw [List.length_take, List.length_drop] at this
  exact ofNat_toNat (by omega)

/-- C37. However the data of a streamed entry was split into writes, interleaved with flushes, and accepted by the sink, and
whatever else the program did: the archive's record for it has the CRC-32 of the accepted bytes and, as uncompressed size,
their number; as compressed size, the number of bytes that stand for them after the local header; and those bytes are the
accepted ones, or what the encoder made of them. The descriptor after them has the same CRC. Partial: with `force_no_zip64`
only if the entry is not compressed (`C37_exchanged_fails`); the sizes in the descriptor are not those
(`C37_descriptor_fails`). -/
theorem C37_stream_partial (C : Codec) (sink sink' : Sink) (zw : ZipWriter) (h : Created sink zw) (hs : sink.bytes = [])
    (ops : List Op) (evs : List Ev) (hc : (runArchive C zw ops evs).2.1 = .ok sink')
    (hown : ∀ op ∈ ops, ∀ f ∈ userFields op, OwnField f) (hsize : sink'.bytes.length < 2 ^ 64)
    (k : Nat) (e : ZipEntry) (evs1 evs2 : List Ev) (acts : List StreamAct) (rs : List (Res Nat)) (r : Res Unit)
    (hop : ops[k]? = some (.stream e false evs1 acts (.close evs2)))
    (hr : (runArchive C zw ops evs).1[k]? = some (.stream (.ok ()) rs (some r))) (hl : Listed r)
    (hf : zw.forceNoZip64 = true → e.compression = .stored) (hbig : (accepted acts rs).length < 2 ^ 64) :
    ∃ off j dir stop js stored fed,
      DirectoryOf sink'.bytes (runArchive C zw ops evs).2.2.isZip64 (archiveComment ops) dir stop js ∧ j ∈ js ∧
      fieldAt sink'.bytes (j + 16) 4 = (crc32 (accepted acts rs)).toNat ∧
      Declares sink'.bytes j (accepted acts rs).length stored.length off ∧
      OccursAt sink'.bytes sigLocal off ∧ OccursAt sink'.bytes stored (dataStart sink'.bytes off) ∧
      StoredAs C e.compression .default fed stored ∧ ((e.compression = .stored ∨ AllOk rs) → fed = accepted acts rs) ∧
      OccursAt sink'.bytes sigDescriptor (dataStart sink'.bytes off + stored.length) ∧
      fieldAt sink'.bytes (dataStart sink'.bytes off + stored.length + 4) 4 = (crc32 (accepted acts rs)).toNat := by
  obtain ⟨l, off, j, dir, stop, js, ha, h1, h2, h3, h4, h5⟩ := listed_entry h hs hc hown hsize hop hr (listed_stream hl)
  cases ha with
  | stream _ _ _ _ _ _ fed stored _ hst hfed =>
    have hcs := stored_fits h3 hsize
    have hus : (UInt64.ofNat (accepted acts rs).length).toNat = (accepted acts rs).length := ofNat_toNat hbig
    have hd := h5 (not_clash rfl)
    have hd' : Declares sink'.bytes j (accepted acts rs).length stored.length off := by
      unfold Listing.recorded at hd
      cases hforce : zw.forceNoZip64 with
      | false =>
        rw [hforce, Bool.false_and, if_neg (by decide)] at hd
        rw [hcs] at hd
        rw [← hus]
        exact hd
      | true =>
        rcases hst with ⟨_, hst⟩ | ⟨hne, _⟩
        · rw [hforce, Bool.true_and, if_pos rfl] at hd
          have heq : stored = accepted acts rs := hst.trans (hfed (Or.inl (hf hforce)))
          subst heq
          rw [hcs] at hd
          rw [hus] at hd
          exact hd
        · exact absurd (hf hforce) hne
    refine ⟨off, j, dir, stop, js, stored, fed, h1, h2, h4.crc, hd', h3.signature, h3.stored, hst, hfed, ?_⟩
    exact h3.descriptor rfl

/-- The sample program streams `[7, 8, 9]` in two writes with its third call. -/
example : ∃ off j dir stop js stored fed,
    DirectoryOf Samples.programBytes (runArchive Samples.markCodec Samples.fresh Samples.program Samples.eager).2.2.isZip64
      (archiveComment Samples.program) dir stop js ∧ j ∈ js ∧
    fieldAt Samples.programBytes (j + 16) 4 = (crc32 [7, 8, 9]).toNat ∧
    Declares Samples.programBytes j 3 stored.length off ∧ OccursAt Samples.programBytes sigLocal off ∧
    OccursAt Samples.programBytes stored (dataStart Samples.programBytes off) ∧
    StoredAs Samples.markCodec .deflate .default fed stored ∧ fed = [7, 8, 9] := by
  obtain ⟨off, j, dir, stop, js, stored, fed, h1, h2, h3, h4, h5, h6, h7, h8, _⟩ := C37_stream_partial Samples.markCodec
    ⟨[], 0, 0⟩ ⟨Samples.programBytes, 1, 0⟩ Samples.fresh .new rfl Samples.program Samples.eager Samples.program_archive.2.1
    Samples.program_legible.own (by decide +kernel) 2 Samples.deflatedEntry Samples.eager Samples.eager
    [.write [7, 8, 9] [.pending, .accept 2], .flush Samples.eager, .write [9] [.drain 1, .accept 5]]
    [.ok 2, .ok 0, .ok 1] (.ok ()) rfl (by rw [Samples.program_archive.1]; rfl) (Or.inl rfl) (fun h => by cases h) (by decide)
  exact ⟨off, j, dir, stop, js, stored, fed, h1, h2, h3, h4, h5, h6, h7, h8 (Or.inr Samples.acts_ok)⟩

/-- C46. Bytes handed in as already compressed stand in the archive verbatim, with the caller's CRC and uncompressed size and
their own number as compressed size. For streamed ones that is for the bytes accepted. Partial: the caller's extra fields are
truthful and not ZIP64; a whole entry beyond 4 GiB has no size of exactly 0xFFFFFFFF (`Clash`); for streamed entries not with
`force_no_zip64`, which exchanges the two sizes (`C46_exchanged_fails`). -/
theorem C46_verbatim_partial (C : Codec) (sink sink' : Sink) (zw : ZipWriter) (h : Created sink zw) (hs : sink.bytes = [])
    (ops : List Op) (evs : List Ev) (hc : (runArchive C zw ops evs).2.1 = .ok sink')
    (hown : ∀ op ∈ ops, ∀ f ∈ userFields op, OwnField f) (hsize : sink'.bytes.length < 2 ^ 64)
    (k : Nat) (e : ZipEntry) (d : Bytes) (r : Res Unit) (hl : Listed r)
    (hop : (∃ evs1, ops[k]? = some (.whole e d true evs1) ∧ (runArchive C zw ops evs).1[k]? = some (.whole r)) ∨
      (∃ evs1 acts evs2 rs, ops[k]? = some (.stream e true evs1 acts (.close evs2)) ∧
        (runArchive C zw ops evs).1[k]? = some (.stream (.ok ()) rs (some r)) ∧ d = accepted acts rs ∧
        zw.forceNoZip64 = false)) :
    ∃ off j dir stop js,
      DirectoryOf sink'.bytes (runArchive C zw ops evs).2.2.isZip64 (archiveComment ops) dir stop js ∧ j ∈ js ∧
      OccursAt sink'.bytes sigLocal off ∧ OccursAt sink'.bytes d (dataStart sink'.bytes off) ∧
      fieldAt sink'.bytes (j + 16) 4 = e.crc32.toNat ∧
      ((off ≤ 0xFFFFFFFF ∨ (e.uncompressedSize ≠ 0xFFFFFFFF ∧ d.length ≠ 0xFFFFFFFF)) →
        Declares sink'.bytes j e.uncompressedSize.toNat d.length off) := by
  rcases hop with ⟨evs1, hop, hr⟩ | ⟨evs1, acts, evs2, rs, hop, hr, rfl, hforce⟩
  · obtain ⟨l, off, j, dir, stop, js, ha, h1, h2, h3, h4, h5⟩ := listed_entry h hs hc hown hsize hop hr fun hn => hn hl
    cases ha with
    | wholePre _ _ _ _ _ =>
      have hcs := stored_fits h3 hsize
      refine ⟨off, j, dir, stop, js, h1, h2, h3.signature, h3.stored, h4.crc, fun hno => ?_⟩
      have hd := h5 (fun hcl => by
        obtain ⟨_, k1, _, _, k2⟩ := hcl
        rcases hno with hno | ⟨hno, hno'⟩
        · omega
        · rcases k2 with k2 | k2
          · exact hno k2
          · refine hno' ?_
            rw [k2] at hcs
            exact hcs.symm)
      unfold Listing.recorded at hd
      rw [Bool.and_false, if_neg (by decide)] at hd
      rw [hcs] at hd
      exact hd
  · obtain ⟨l, off, j, dir, stop, js, ha, h1, h2, h3, h4, h5⟩ := listed_entry h hs hc hown hsize hop hr (listed_stream hl)
    cases ha with
    | streamPre _ _ _ _ _ _ _ =>
      have hcs := stored_fits h3 hsize
      refine ⟨off, j, dir, stop, js, h1, h2, h3.signature, h3.stored, h4.crc, fun _ => ?_⟩
      have hd := h5 (not_clash rfl)
      unfold Listing.recorded at hd
      rw [hforce, Bool.false_and, if_neg (by decide)] at hd
      rw [hcs] at hd
      exact hd

/-! ## Where that goes wrong -/

namespace Samples

/-- The same three bytes, compressed by the caller. -/
def handedIn : List Op :=
  [.stream { deflatedEntry with crc32 := 1259076923, uncompressedSize := 3 } true eager
    [.write [1, 7, 1, 8, 1, 9, 0] eager] (.close eager)]

/-- What comes of it. -/
def handedInBytes : Bytes :=
  [80, 75, 3, 4, 20, 0, 8, 8, 8, 0, 0, 0, 0, 0, 59, 253, 11, 75, 0, 0, 0, 0, 3, 0, 0, 0, 1, 0, 0, 0, 98, 1, 7, 1, 8, 1, 9,
  0, 80, 75, 7, 8, 59, 253, 11, 75, 3, 0, 0, 0, 7, 0, 0, 0, 80, 75, 1, 2, 63, 3, 20, 0, 8, 8, 8, 0, 0, 0, 0, 0, 59, 253,
  11, 75, 3, 0, 0, 0, 7, 0, 0, 0, 1, 0, 0, 0, 0, 0, 0, 0, 0, 0, 0, 0, 164, 1, 0, 0, 0, 0, 98, 80, 75, 5, 6, 0, 0, 0, 0,
  1, 0, 1, 0, 47, 0, 0, 0, 54, 0, 0, 0, 0, 0]

theorem handedIn_archive : (runArchive markCodec small handedIn eager).1 = [.stream (.ok ()) [.ok 7] (some (.ok ()))] ∧
    (runArchive markCodec small handedIn eager).2.1 = .ok ⟨handedInBytes, 0, 0⟩ := by decide +kernel

theorem exchanged_archive : (runArchive markCodec small streamOne eager).1 = [.stream (.ok ()) [.ok 3] (some (.ok ()))] ∧
    (runArchive markCodec small streamOne eager).2.1 = .ok ⟨exchangedBytes, 0, 0⟩ := by decide +kernel

theorem streamed_archive : (runArchive markCodec fresh streamOne eager).1 = [.stream (.ok ()) [.ok 3] (some (.ok ()))] ∧
    (runArchive markCodec fresh streamOne eager).2.1 = .ok ⟨streamedBytes, 0, 0⟩ := by decide +kernel

/-- The directory header of `exchangedBytes`. -/
def exchangedHeader : CentralDirectoryRecord :=
  { vMadeBy := 831, vNeeded := 20, flags := ⟨false, true, true⟩, compression := 8, modTime := 0, modDate := 0
    crc := 1259076923, compressedSize := 3, uncompressedSize := 7, fileNameLength := 1, extraFieldLength := 0
    fileCommentLength := 0, diskStart := 0, interAttr := 0, exterAttr := 27525120, lhOffset := 0 }

/-- What `exchangedBytes` contains, to the reader. -/
def exchangedFile : ZipFile :=
  { entries := [cdEntryOf exchangedHeader [98] .deflate [] []], zip64 := false, comment := ⟨.utf8, [], none⟩ }

theorem exchanged_opens (b : Build) (hb : 1 ≤ b.maxVecEntries) (pos : Nat) :
    Runs (openFile b) exchangedBytes pos (.ok exchangedFile) 101 := by
  have hl : LastEnd exchangedBytes 101 := lastEnd_of_decide (by decide +kernel)
  refine Runs.openFile (re := .ok exchangedFile.entries) (comment := []) (eo := ⟨0, 0, 1, 1, 47, 54, 0⟩) hl.1 hl.2 (by decide +kernel)
    (by decide +kernel) (by decide +kernel)
    (fun p => ⟨_, Runs.readCombined_plain (by decide) rfl (by decide +kernel) (by decide +kernel)⟩) rfl rfl
    (Runs.cd hb ?_)
  refine Runs.cdLoop_cons (Runs.cdRecord (rest := exchangedBytes.drop 101) (xb := []) (by decide +kernel)
    rfl rfl rfl rfl ?_) Runs.pure
  rw [parseExtraFields, parseExtraLoop_short b _ _ [] (by decide)]

end Samples

/-- C37 as written does not hold with `force_no_zip64` for compressed entries: three bytes were accepted and seven stand for
them, but the record at 54 gives 7 as the uncompressed and 3 as the compressed size, as does the descriptor. -/
theorem C37_exchanged_fails :
    (runArchive Samples.markCodec small Samples.streamOne Samples.eager).1 = [.stream (.ok ()) [.ok 3] (some (.ok ()))] ∧
    (runArchive Samples.markCodec small Samples.streamOne Samples.eager).2.1 = .ok ⟨Samples.exchangedBytes, 0, 0⟩ ∧
    OccursAt Samples.exchangedBytes sigCentral 54 ∧
    OccursAt Samples.exchangedBytes [1, 7, 1, 8, 1, 9, 0] (dataStart Samples.exchangedBytes 0) ∧
    fieldAt Samples.exchangedBytes (54 + 24) 4 = 7 ∧ fieldAt Samples.exchangedBytes (54 + 20) 4 = 3 ∧
    fieldAt Samples.exchangedBytes (dataStart Samples.exchangedBytes 0 + 7 + 8) 4 = 3 ∧
    fieldAt Samples.exchangedBytes (dataStart Samples.exchangedBytes 0 + 7 + 12) 4 = 7 := by
  refine ⟨Samples.exchanged_archive.1, Samples.exchanged_archive.2, ?_⟩
  decide +kernel

/-- C46 as written does not hold with `force_no_zip64` for streams: every precompressed entry so written has the caller's
uncompressed size as its compressed size, and the number of its bytes as its uncompressed size. -/
theorem C46_exchanged_fails (C : Codec) (sink sink' : Sink) (zw : ZipWriter) (h : Created sink zw) (hs : sink.bytes = [])
    (ops : List Op) (evs : List Ev) (hc : (runArchive C zw ops evs).2.1 = .ok sink')
    (hown : ∀ op ∈ ops, ∀ f ∈ userFields op, OwnField f) (hsize : sink'.bytes.length < 2 ^ 64)
    (k : Nat) (e : ZipEntry) (r : Res Unit) (hl : Listed r) (evs1 evs2 : List Ev) (acts : List StreamAct) (rs : List (Res Nat))
    (hop : ops[k]? = some (.stream e true evs1 acts (.close evs2)))
    (hr : (runArchive C zw ops evs).1[k]? = some (.stream (.ok ()) rs (some r))) (hforce : zw.forceNoZip64 = true) :
    ∃ off j dir stop js,
      DirectoryOf sink'.bytes (runArchive C zw ops evs).2.2.isZip64 (archiveComment ops) dir stop js ∧ j ∈ js ∧
      OccursAt sink'.bytes sigLocal off ∧ OccursAt sink'.bytes (accepted acts rs) (dataStart sink'.bytes off) ∧
      Declares sink'.bytes j (accepted acts rs).length e.uncompressedSize.toNat off := by
  obtain ⟨l, off, j, dir, stop, js, ha, h1, h2, h3, h4, h5⟩ := listed_entry h hs hc hown hsize hop hr (listed_stream hl)
  cases ha with
  | streamPre _ _ _ _ _ _ _ =>
    have hcs := stored_fits h3 hsize
    refine ⟨off, j, dir, stop, js, h1, h2, h3.signature, h3.stored, ?_⟩
    have hd := h5 (not_clash rfl)
    unfold Listing.recorded at hd
    rw [hforce, Bool.true_and, if_pos rfl] at hd
    rw [hcs] at hd
    exact hd

/-- Seven bytes that stand for three. -/
example : (runArchive Samples.markCodec small Samples.handedIn Samples.eager).2.1 = .ok ⟨Samples.handedInBytes, 0, 0⟩ ∧
    ∃ off j, OccursAt Samples.handedInBytes [1, 7, 1, 8, 1, 9, 0] (dataStart Samples.handedInBytes off) ∧
      Declares Samples.handedInBytes j 7 3 off := by
  refine ⟨Samples.handedIn_archive.2, ?_⟩
  obtain ⟨off, j, _, _, _, _, _, _, h1, h2⟩ := C46_exchanged_fails Samples.markCodec ⟨[], 0, 0⟩ ⟨Samples.handedInBytes, 0, 0⟩ small
    (.noZip64 .new) rfl Samples.handedIn Samples.eager Samples.handedIn_archive.2 (fun op ho f hf => by
      rw [List.mem_singleton.1 ho] at hf; cases hf) (by decide +kernel) 0 _ (.ok ()) (Or.inl rfl) _ _ _ [.ok 7] rfl
    (by rw [Samples.handedIn_archive.1]; rfl) rfl
  exact ⟨off, j, h1, h2⟩

/-- C37 as written does not hold for the data descriptor: unless ZIP64 is forbidden, its sizes are 0xFFFFFFFF whatever was
written (APPNOTE 4.3.9.2 has 8-byte sizes in a ZIP64 descriptor). -/
theorem C37_descriptor_fails :
    (runArchive Samples.markCodec Samples.fresh Samples.streamOne Samples.eager).1 = [.stream (.ok ()) [.ok 3] (some (.ok ()))] ∧
    (runArchive Samples.markCodec Samples.fresh Samples.streamOne Samples.eager).2.1 = .ok ⟨Samples.streamedBytes, 0, 0⟩ ∧
    OccursAt Samples.streamedBytes [1, 7, 1, 8, 1, 9, 0] (dataStart Samples.streamedBytes 0) ∧
    OccursAt Samples.streamedBytes sigDescriptor (dataStart Samples.streamedBytes 0 + 7) ∧
    fieldAt Samples.streamedBytes (dataStart Samples.streamedBytes 0 + 7 + 8) 4 = 0xFFFFFFFF ∧
    fieldAt Samples.streamedBytes (dataStart Samples.streamedBytes 0 + 7 + 12) 4 = 0xFFFFFFFF := by
  refine ⟨Samples.streamed_archive.1, Samples.streamed_archive.2, ?_⟩
  decide +kernel

/-- C42 as written does not hold with `force_no_zip64` for compressed streams: the archive opens, but its entry can never be
read. -/
theorem C42_exchanged_fails (b : Build) (hb : 1 ≤ b.maxVecEntries) : ∃ f : ZipFile,
    (runArchive Samples.markCodec small Samples.streamOne Samples.eager).1 = [.stream (.ok ()) [.ok 3] (some (.ok ()))] ∧
    (runArchive Samples.markCodec small Samples.streamOne Samples.eager).2.1 = .ok ⟨Samples.exchangedBytes, 0, 0⟩ ∧
    (∀ s : RState, s.data = Samples.exchangedBytes → Interrupted (openFile b s).1 ∨ (openFile b s).1 = .ok f) ∧
    ∀ chunk, 0 < chunk → ∀ s : RState, s.data = Samples.exchangedBytes → ∀ d,
      (checkedRead Samples.markCodec f 0 chunk s).1 ≠ .ok d := by
  refine ⟨Samples.exchangedFile, Samples.exchanged_archive.1, Samples.exchanged_archive.2, fun s hs => ?_,
    fun chunk hc s hs d hd => ?_⟩
  · exact ((Samples.exchanged_opens b hb s.pos).of_chunkIndep (openFile_chunkIndep b) s hs rfl).imp id fun h => h.1
  · cases hr : checkedRead Samples.markCodec Samples.exchangedFile 0 chunk s with
    | mk r s' =>
      rw [hr] at hd
      cases hd
      unfold checkedRead at hr
      obtain ⟨⟨er, e⟩, s1, h1, hr⟩ := bind_ok_iff.1 hr
      obtain ⟨⟨d', er'⟩, s2, h2, _⟩ := bind_ok_iff.1 hr
      obtain ⟨se, g1, rfl, rfl, _, g3, g4⟩ := readerWithEntry_ok h1
      cases g1
      have := (C24_ok_matches _ _ _ chunk hc _ s1 s1 s2 _ er' [] d' (.refl _ _) h2).2.2
      rw [g4, g3, hs] at this
      revert this
      decide +kernel

/-- Precompressed data, with a checksum and size that the writer does not question. -/
def Samples.given : ZipEntry := { Samples.deflatedEntry with crc32 := 77, uncompressedSize := 5 }

theorem Samples.given_archive :
    (runArchive Samples.markCodec Samples.fresh [.whole Samples.given [1, 4, 0] true Samples.eager] Samples.eager).1 =
      [.whole (.ok ())] ∧
    ∃ s, (runArchive Samples.markCodec Samples.fresh [.whole Samples.given [1, 4, 0] true Samples.eager] Samples.eager).2.1 =
      .ok s ∧ s.bytes.length < 1000 := by
  refine ⟨by decide +kernel, _, rfl, by decide +kernel⟩

example : ∃ bytes off j dir stop js,
    DirectoryOf bytes false [] dir stop js ∧ j ∈ js ∧ OccursAt bytes sigLocal off ∧
    OccursAt bytes [1, 4, 0] (dataStart bytes off) ∧ fieldAt bytes (j + 16) 4 = 77 ∧ Declares bytes j 5 3 off := by
  obtain ⟨h, s, hs, hlen⟩ := Samples.given_archive
  obtain ⟨off, j, dir, stop, js, h1, h2, h3, h4, h5, h6⟩ := C46_verbatim_partial Samples.markCodec ⟨[], 0, 0⟩ s Samples.fresh
    .new rfl _ _ hs (by intro op hop f hf; cases List.mem_singleton.1 hop; cases hf) (by omega) 0 Samples.given [1, 4, 0] (.ok ()) (Or.inl rfl)
    (Or.inl ⟨Samples.eager, rfl, by rw [h]; rfl⟩)
  exact ⟨s.bytes, off, j, dir, stop, js, h1, h2, h3, h4, h5, h6 (Or.inr (by decide))⟩

/-! ## C43, C44: reading single entries back -/

theorem Wrote.holds {C : Codec} (hC : Lawful C) {op : Op} {r : OpResult} {l : Listing} {e : ZipEntry} {d : Bytes}
    (hw : Wrote op r e d) (ha : Asked C op r l) :
    l.entry = e ∧ l.crc = crc32 d ∧ l.us = UInt64.ofNat d.length ∧ Holds C l d ∧
      (e.compression = .stored → l.cs = UInt64.ofNat d.length) := by
  cases hw with
  | whole e d evs r =>
    cases ha with
    | whole _ _ _ _ stored hl hst =>
      refine ⟨rfl, rfl, rfl, StoredAs.holds hC hst rfl rfl, fun hm => ?_⟩
      rcases hst with ⟨_, h⟩ | ⟨h, _⟩
      · rw [h]; rfl
      · exact absurd hm h
  | stream e evs evs' acts rs r hok =>
    cases ha with
    | stream _ _ _ _ _ _ fed stored hl hst hfed =>
      rw [hfed hok] at hst
      refine ⟨rfl, rfl, rfl, StoredAs.holds hC hst rfl rfl, fun hm => ?_⟩
      rcases hst with ⟨_, h⟩ | ⟨h, _⟩
      · rw [h]; rfl
      · exact absurd hm h

theorem Wrote.data {C : Codec} {op : Op} {r : OpResult} {e : ZipEntry} {d : Bytes} (h : Wrote op r e d) : DataOf C op r d := by
  cases h with
  | whole e d evs r => exact .whole e d evs r
  | stream e evs evs' acts rs r hok => exact .stream e evs evs' acts rs r hok

/-- Every listed call of a finished archive can be found and read in it. -/
theorem listed_read {C : Codec} (hC : Lawful C) {sink sink' : Sink} {zw : ZipWriter} (h : Created sink zw)
    (hs : sink.bytes = []) {ops : List Op} {evs : List Ev} (hc : (runArchive C zw ops evs).2.1 = .ok sink')
    (hleg : Legible ops (runArchive C zw ops evs).1 (runArchive C zw ops evs).2.2.isZip64 sink'.bytes)
    (hsmall : sink'.bytes.length ≤ 0xFFFFFFFF ∨
      ∀ ls, Program C ops (runArchive C zw ops evs).1 ls → ∀ l ∈ ls, l.us ≠ 0xFFFFFFFF ∧ l.cs ≠ 0xFFFFFFFF)
    (b : Build) (hb : (runArchive C zw ops evs).1.countP isListed ≤ b.maxVecEntries) :
    ∃ f : ZipFile, (∀ s : RState, s.data = sink'.bytes → Interrupted (openFile b s).1 ∨ (openFile b s).1 = .ok f) ∧
      f.entries.length = (runArchive C zw ops evs).1.countP isListed ∧ f.comment = ⟨.utf8, archiveComment ops, none⟩ ∧
      ∀ k op r, ops[k]? = some op → (runArchive C zw ops evs).1[k]? = some r → isListed r = true →
        ∃ l off e, Asked C op r l ∧ f.entries[((runArchive C zw ops evs).1.take k).countP isListed]? = some e ∧
          ReadAs zw.forceNoZip64 off l e ∧ e.entry.filename = nameRead l.entry ∧ e.entry.comment = commentRead l.entry ∧
          (off < sink'.bytes.length ∧ l.stored.length < sink'.bytes.length ∧
            ∃ hd fs, Carries zw.forceNoZip64 l.streamed l.entry (l.recorded zw.forceNoZip64).1 (l.recorded zw.forceNoZip64).2
              off hd fs ∧ e.entry.extraFields = trim fs) ∧
          (((zw.forceNoZip64 = true → ¬ Exchanged op)) → ∀ d, DataOf C op r d → ∀ chunk, 0 < chunk → ∀ s : RState,
            s.data = sink'.bytes →
              Interrupted (checkedRead C f (((runArchive C zw ops evs).1.take k).countP isListed) chunk s).1 ∨
              (checkedRead C f (((runArchive C zw ops evs).1.take k).countP isListed) chunk s).1 = .ok d) := by
  obtain ⟨out, ps, offs, cd, z, fin⟩ := finished h hs hc (J := True) (Or.inl trivial)
  have hcount := Program.count fin.program
  rw [List.length_map] at hcount
  obtain ⟨f, h1, h2, _, hcm⟩ := fin.shown (b := b) h hleg (fin.noClash hsmall) (by rw [hcount]; exact hb)
  refine ⟨f, h1, ?_, hcm, fun k op r hop hr hl => ?_⟩
  · rw [← h2.length_eq, List.length_zip, ← fin.placed.length_eq, Nat.min_self, hcount]
  · obtain ⟨l, hi, ha⟩ := Program.nth fin.program hop hr hl
    generalize ((runArchive C zw ops evs).1.take k).countP isListed = i at hi ⊢
    rw [List.getElem?_map] at hi
    cases hp : ps[i]? with
    | none => rw [hp] at hi; cases hi
    | some p =>
      rw [hp] at hi
      cases hi
      obtain ⟨off, ho, a, x, rest, hout, hal, g⟩ := forall₂_get' fin.placed hp
      obtain ⟨e, he, hsh⟩ := forall₂_get' h2 (i := i) (a := (p, off)) (by
        rw [List.getElem?_zip_eq_some]; exact ⟨hp, ho⟩)
      have hpm := List.mem_of_getElem? hp
      have hbytes : sink'.bytes = a ++ x ++ (rest ++ (cd ++ endBytes z ps.length cd.length out.length
          (commentBytes (finalComment none ops)))) := by
        rw [fin.bytes, archiveBytes, hout]
        simp only [List.append_assoc]
      refine ⟨p.1, off, e, ha, he, hsh.readAs, hsh.name, hsh.comment, ?_, fun hx d hw chunk hch s hsd => ?_⟩
      · obtain ⟨hd, fs, extra, hl, _, hx⟩ := g.bytes
        have h4 := congrArg List.length hbytes
        have h5 := congrArg List.length hx
        simp only [localBytes, List.length_append, le32_length] at h4 h5
        exact ⟨by omega, by omega, _, _, g.describes.carries, hsh.extra⟩
      obtain ⟨g1, g3⟩ := DataOf.holds hC hw ha
      refine g.checked (a := a) (x := x) (rest := rest ++ (cd ++ endBytes z ps.length cd.length out.length
        (commentBytes (finalComment none ops)))) (fin.own hleg.own p hpm) ?_ hal hsh.readAs ?_ hleg.size he hch g3 g1.symm s hsd
      · rw [fin.bytes, archiveBytes, hout]
        simp only [List.append_assoc]
      · rw [Asked.recorded hx ha]

/-- C43. Calls that failed or were cancelled - at whatever point - and streams that were abandoned add nothing to the
directory. -/
theorem C43_not_listed (C : Codec) (zw : ZipWriter) (op : Op) (h : isListed (runOp C zw op).1 = false) :
    (runOp C zw op).2.cdEntries = zw.cdEntries := by
  cases runOp_step C zw op with
  | other _ _ he => exact he
  | listed l c x asked _ _ _ he _ _ _ =>
    rw [Asked.listed asked] at h
    cases h

/-- C43. In a program with any number of such calls at any place, the finished archive has an entry for each listed call,
and nothing else, in order, and each of them has the metadata that its own call asked for and reads back as the data that
its own call wrote, whatever the others did. Partial: for archives that are `Legible` and without `Clash` (see C41), and
see `C43_refused_fails` for a call that fails and is listed all the same. -/
theorem C43_harmless_partial (C : Codec) (hC : Lawful C) (sink sink' : Sink) (zw : ZipWriter) (h : Created sink zw)
    (hs : sink.bytes = []) (ops : List Op) (evs : List Ev) (hc : (runArchive C zw ops evs).2.1 = .ok sink')
    (hleg : Legible ops (runArchive C zw ops evs).1 (runArchive C zw ops evs).2.2.isZip64 sink'.bytes)
    (hsmall : sink'.bytes.length ≤ 0xFFFFFFFF ∨
      ∀ ls, Program C ops (runArchive C zw ops evs).1 ls → ∀ l ∈ ls, l.us ≠ 0xFFFFFFFF ∧ l.cs ≠ 0xFFFFFFFF)
    (b : Build) (hb : (runArchive C zw ops evs).1.countP isListed ≤ b.maxVecEntries) :
    ∃ f : ZipFile, (∀ s : RState, s.data = sink'.bytes → Interrupted (openFile b s).1 ∨ (openFile b s).1 = .ok f) ∧
      f.entries.length = (runArchive C zw ops evs).1.countP isListed ∧
      ∀ k op r, ops[k]? = some op → (runArchive C zw ops evs).1[k]? = some r → isListed r = true →
        ∃ l off e, Asked C op r l ∧ f.entries[((runArchive C zw ops evs).1.take k).countP isListed]? = some e ∧
          ReadAs zw.forceNoZip64 off l e ∧
          ((zw.forceNoZip64 = true → ¬ Exchanged op) → ∀ d, DataOf C op r d → ∀ chunk, 0 < chunk → ∀ s : RState,
            s.data = sink'.bytes →
              Interrupted (checkedRead C f (((runArchive C zw ops evs).1.take k).countP isListed) chunk s).1 ∨
              (checkedRead C f (((runArchive C zw ops evs).1.take k).countP isListed) chunk s).1 = .ok d) := by
  obtain ⟨f, h1, h2, _, h3⟩ := listed_read hC h hs hc hleg hsmall b hb
  refine ⟨f, h1, h2, fun k op r hop hr hl => ?_⟩
  obtain ⟨l, off, e, g1, g2, g3, _, _, _, g4⟩ := h3 k op r hop hr hl
  exact ⟨l, off, e, g1, g2, g3, g4⟩

/-- In the sample program a stream is abandoned after the first call, and the last call fails. -/
example (b : Build) (hb : 2 ≤ b.maxVecEntries) : ∃ f : ZipFile, f.entries.length = 2 ∧
    (∀ s : RState, s.data = Samples.programBytes → Interrupted (openFile b s).1 ∨ (openFile b s).1 = .ok f) ∧
    (∀ s : RState, s.data = Samples.programBytes →
      Interrupted (checkedRead Samples.markCodec f 1 7 s).1 ∨ (checkedRead Samples.markCodec f 1 7 s).1 = .ok [7, 8, 9]) := by
  obtain ⟨f, h1, h2, h3⟩ := C43_harmless_partial Samples.markCodec Samples.markCodec_lawful ⟨[], 0, 0⟩
    ⟨Samples.programBytes, 1, 0⟩ Samples.fresh .new rfl Samples.program Samples.eager Samples.program_archive.2.1
    Samples.program_legible (Or.inl (by decide +kernel)) b (by rw [Samples.program_archive.1]; exact hb)
  rw [Samples.program_archive.1] at h2 h3
  obtain ⟨_, _, _, _, _, _, h4⟩ := h3 2 _ _ rfl rfl rfl
  exact ⟨f, h2, h1, h4 (fun h => by cases h) [7, 8, 9]
    (.stream Samples.deflatedEntry Samples.eager Samples.eager
      [.write [7, 8, 9] [.pending, .accept 2], .flush Samples.eager, .write [9] [.drain 1, .accept 5]]
      [.ok 2, .ok 0, .ok 1] (.ok ()) (Or.inr Samples.acts_ok)) 7 (by decide)⟩

/-- The two archives show their entry in the same way, but for where it is, its compressed size, and its extra fields. -/
structure SameEntry (e e' : StoredZipEntry) : Prop where
  name : e.entry.filename = e'.entry.filename
  comment : e.entry.comment = e'.entry.comment
  method : e.entry.compression = e'.entry.compression
  date : e.entry.lastModificationDate = e'.entry.lastModificationDate
  internal : e.entry.internalFileAttribute = e'.entry.internalFileAttribute
  external : e.entry.externalFileAttribute = e'.entry.externalFileAttribute
  crc : e.entry.crc32 = e'.entry.crc32
  us : e.entry.uncompressedSize = e'.entry.uncompressedSize
  cs : e.entry.compression = .stored → e.entry.compressedSize = e'.entry.compressedSize

/-- C44. Two programs, in archives of any kind and with whatever else they contain, that write the same entry and data - as
a whole or as a stream, in any split - have entries for it that agree in everything but the place, the compressed size
(unless stored) and the extra fields, and read back as the same data. Partial: `Legible` archives without `Clash`; not for
compressed streams with `force_no_zip64`; compressed sizes can differ (`C44_compressed_size_fails`). -/
theorem C44_equivalent_partial (C : Codec) (hC : Lawful C) (sink sink' tink tink' : Sink) (zw vw : ZipWriter)
    (h : Created sink zw) (hs : sink.bytes = []) (h' : Created tink vw) (hs' : tink.bytes = [])
    (ops ops' : List Op) (evs evs' : List Ev) (hc : (runArchive C zw ops evs).2.1 = .ok sink')
    (hc' : (runArchive C vw ops' evs').2.1 = .ok tink')
    (hleg : Legible ops (runArchive C zw ops evs).1 (runArchive C zw ops evs).2.2.isZip64 sink'.bytes)
    (hleg' : Legible ops' (runArchive C vw ops' evs').1 (runArchive C vw ops' evs').2.2.isZip64 tink'.bytes)
    (hsmall : sink'.bytes.length ≤ 0xFFFFFFFF) (hsmall' : tink'.bytes.length ≤ 0xFFFFFFFF)
    (b : Build) (hb : (runArchive C zw ops evs).1.countP isListed ≤ b.maxVecEntries)
    (hb' : (runArchive C vw ops' evs').1.countP isListed ≤ b.maxVecEntries)
    (k k' : Nat) (op op' : Op) (r r' : OpResult) (x : ZipEntry) (d : Bytes)
    (hop : ops[k]? = some op) (hr : (runArchive C zw ops evs).1[k]? = some r) (hl : isListed r = true) (hw : Wrote op r x d)
    (hop' : ops'[k']? = some op') (hr' : (runArchive C vw ops' evs').1[k']? = some r') (hl' : isListed r' = true)
    (hw' : Wrote op' r' x d)
    (hx : zw.forceNoZip64 = true → ¬ Exchanged op) (hx' : vw.forceNoZip64 = true → ¬ Exchanged op') :
    ∃ (f f' : ZipFile) (i i' : Nat) (e e' : StoredZipEntry),
      (∀ s : RState, s.data = sink'.bytes → Interrupted (openFile b s).1 ∨ (openFile b s).1 = .ok f) ∧
      (∀ s : RState, s.data = tink'.bytes → Interrupted (openFile b s).1 ∨ (openFile b s).1 = .ok f') ∧
      f.entries[i]? = some e ∧ f'.entries[i']? = some e' ∧ SameEntry e e' ∧
      (∀ chunk, 0 < chunk → ∀ s : RState, s.data = sink'.bytes →
        Interrupted (checkedRead C f i chunk s).1 ∨ (checkedRead C f i chunk s).1 = .ok d) ∧
      (∀ chunk, 0 < chunk → ∀ s : RState, s.data = tink'.bytes →
        Interrupted (checkedRead C f' i' chunk s).1 ∨ (checkedRead C f' i' chunk s).1 = .ok d) := by
  obtain ⟨f, h1, _, _, h3⟩ := listed_read hC h hs hc hleg (Or.inl hsmall) b hb
  obtain ⟨f', h1', _, _, h3'⟩ := listed_read hC h' hs' hc' hleg' (Or.inl hsmall') b hb'
  obtain ⟨l, off, e, g1, g2, g3, g4, g5, _, g6⟩ := h3 k op r hop hr hl
  obtain ⟨l', off', e', q1, q2, q3, q4, q5, _, q6⟩ := h3' k' op' r' hop' hr' hl'
  obtain ⟨w1, w2, w3, _, w5⟩ := Wrote.holds hC hw g1
  obtain ⟨v1, v2, v3, _, v5⟩ := Wrote.holds hC hw' q1
  have u := Asked.recorded hx g1
  have u' := Asked.recorded hx' q1
  refine ⟨f, f', _, _, e, e', h1, h1', g2, q2, ⟨?_, ?_, ?_, ?_, ?_, ?_, ?_, ?_, ?_⟩, g6 hx d (Wrote.data hw), q6 hx' d (Wrote.data hw')⟩
  · rw [g4, q4, w1, v1]
  · rw [g5, q5, w1, v1]
  · rw [g3.method, q3.method, w1, v1]
  · rw [g3.date, q3.date, w1, v1]
  · rw [g3.internal, q3.internal, w1, v1]
  · rw [g3.external, q3.external, w1, v1]
  · rw [g3.crc, q3.crc, w2, v2]
  · rw [g3.us, q3.us, u, u', w3, v3]
  · intro hm
    rw [g3.method, w1] at hm
    rw [g3.cs, q3.cs, u, u', w5 hm, v5 hm]

theorem Samples.whole_archive :
    (runArchive Samples.markCodec Samples.fresh [.whole Samples.deflatedEntry [7, 8, 9] false Samples.eager] Samples.eager).1 =
      [.whole (.ok ())] ∧
    (runArchive Samples.markCodec Samples.fresh [.whole Samples.deflatedEntry [7, 8, 9] false Samples.eager] Samples.eager).2.1 =
      .ok ⟨Samples.wholeBytes, 0, 0⟩ ∧
    (runArchive Samples.markCodec Samples.fresh [.whole Samples.deflatedEntry [7, 8, 9] false Samples.eager]
      Samples.eager).2.2.isZip64 = false := by decide +kernel

theorem Samples.whole_legible : Legible [.whole Samples.deflatedEntry [7, 8, 9] false Samples.eager]
    (runArchive Samples.markCodec Samples.fresh [.whole Samples.deflatedEntry [7, 8, 9] false Samples.eager] Samples.eager).1
    (runArchive Samples.markCodec Samples.fresh [.whole Samples.deflatedEntry [7, 8, 9] false Samples.eager]
      Samples.eager).2.2.isZip64 Samples.wholeBytes := by
  rw [Samples.whole_archive.1, Samples.whole_archive.2.2]
  exact legible_of_decide (by intro op hop f hf; cases List.mem_singleton.1 hop; cases hf) (by decide +kernel)

/-- The third entry of the sample program is the one written as a whole here. -/
example (b : Build) (hb : 2 ≤ b.maxVecEntries) : ∃ (f f' : ZipFile) (i i' : Nat) (e e' : StoredZipEntry),
      (∀ s : RState, s.data = Samples.programBytes → Interrupted (openFile b s).1 ∨ (openFile b s).1 = .ok f) ∧
      (∀ s : RState, s.data = Samples.wholeBytes → Interrupted (openFile b s).1 ∨ (openFile b s).1 = .ok f') ∧
      f.entries[i]? = some e ∧ f'.entries[i']? = some e' ∧ SameEntry e e' := by
  obtain ⟨f, f', i, i', e, e', h1, h2, h3, h4, h5, _⟩ := C44_equivalent_partial Samples.markCodec Samples.markCodec_lawful
    ⟨[], 0, 0⟩ ⟨Samples.programBytes, 1, 0⟩ ⟨[], 0, 0⟩ ⟨Samples.wholeBytes, 0, 0⟩ Samples.fresh Samples.fresh .new rfl .new rfl
    Samples.program [.whole Samples.deflatedEntry [7, 8, 9] false Samples.eager] Samples.eager Samples.eager
    Samples.program_archive.2.1 Samples.whole_archive.2.1 Samples.program_legible Samples.whole_legible (by decide +kernel) (by decide +kernel)
    b (by rw [Samples.program_archive.1]; exact hb) (by rw [Samples.whole_archive.1]; exact Nat.le_trans (by decide) hb) 2 0
    (.stream Samples.deflatedEntry false Samples.eager
      [.write [7, 8, 9] [.pending, .accept 2], .flush Samples.eager, .write [9] [.drain 1, .accept 5]] (.close Samples.eager))
    (.whole Samples.deflatedEntry [7, 8, 9] false Samples.eager) (.stream (.ok ()) [.ok 2, .ok 0, .ok 1] (some (.ok ())))
    (.whole (.ok ())) Samples.deflatedEntry [7, 8, 9] rfl (by rw [Samples.program_archive.1]; rfl) rfl
    (.stream Samples.deflatedEntry Samples.eager Samples.eager
      [.write [7, 8, 9] [.pending, .accept 2], .flush Samples.eager, .write [9] [.drain 1, .accept 5]]
      [.ok 2, .ok 0, .ok 1] (.ok ()) (Or.inr Samples.acts_ok)) rfl (by rw [Samples.whole_archive.1]; rfl) rfl
    (.whole _ _ _ _) (fun h => by cases h) (fun h => by cases h)
  exact ⟨f, f', i, i', e, e', h1, h2, h3, h4, h5⟩

/-- C44 as written does not hold for the compressed size: with an encoder for which a flush is visible, the record of the
streamed data gives eight bytes (in its ZIP64 field, at 141), the other one seven. -/
theorem C44_compressed_size_fails : Lawful Samples.markCodec ∧
    (runArchive Samples.markCodec Samples.fresh [.whole Samples.deflatedEntry [7, 8, 9] false Samples.eager] Samples.eager).2.1 =
      .ok ⟨Samples.wholeBytes, 0, 0⟩ ∧
    (runArchive Samples.markCodec Samples.fresh [.stream Samples.deflatedEntry false Samples.eager
      [.write [7, 8, 9] Samples.eager, .flush Samples.eager] (.close Samples.eager)] Samples.eager).2.1 =
      .ok ⟨Samples.flushedBytes, 1, 0⟩ ∧
    OccursAt Samples.wholeBytes sigCentral 38 ∧ fieldAt Samples.wholeBytes (38 + 20) 4 = 7 ∧
    OccursAt Samples.flushedBytes sigCentral 75 ∧ OccursAt Samples.flushedBytes [1, 0, 24, 0] (75 + 47) ∧
    fieldAt Samples.flushedBytes (75 + 47 + 4) 8 = 3 ∧ fieldAt Samples.flushedBytes (75 + 47 + 12) 8 = 8 := by
  refine ⟨Samples.markCodec_lawful, ?_⟩
  decide +kernel

end AsyncZip
