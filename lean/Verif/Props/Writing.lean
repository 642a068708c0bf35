import Verif.Proofs.WriteCount
import Verif.Proofs.SampleCodec
import Verif.Samples.ProgramRuns
/-!
# C32-C35, C38, C47: what the writer does to its sink, and what it rejects

A program is a list of calls (`Op`), each with the behaviour of the sink during it; running out of behaviour is the future
being dropped. All theorems quantify over all programs, so "at every point of a history" is a prefix of a program.
-/

namespace AsyncZip
open Spec Samples

/-! ## C32 -/

/-- C32. Whatever the program does and however the sink behaves, the writer's position is the number of bytes the sink has
accepted since the writer was created. -/
theorem C32_offset (C : Codec) (sink : Sink) (zw : ZipWriter) (h : Created sink zw) (ops : List Op) :
    (runOps C zw ops).2.writer.sink.bytes.length = sink.bytes.length + (runOps C zw ops).2.writer.offset := by
  obtain ⟨x, h1, h2⟩ := (runOps_ext C ops zw).bytes
  obtain ⟨hw, _⟩ := Created.facts h
  rw [h1, h2, hw, List.length_append, Nat.zero_add]

/-- C32, during and after closing the archive. -/
theorem C32_offset_close (C : Codec) (sink : Sink) (zw : ZipWriter) (h : Created sink zw) (ops : List Op) (evs : List Ev) :
    (runArchive C zw ops evs).2.2.writer.sink.bytes.length = sink.bytes.length + (runArchive C zw ops evs).2.2.writer.offset := by
  obtain ⟨x, h1, h2⟩ := (runArchive_ext C zw ops evs).bytes
  obtain ⟨hw, _⟩ := Created.facts h
  rw [h1, h2, hw, List.length_append, Nat.zero_add]

/-- C32, concretely: a program with short writes, an abandoned stream and an error of the sink. -/
example : (runOps markCodec fresh program).2.writer.offset = 169 ∧
    (runOps markCodec fresh program).2.writer.sink.bytes.length = 169 := by rw [program_runs]; decide +kernel

/-! ## C33 -/

/-- C33. A program only appends to the sink, never closes it, and flushes it exactly as often as it asked for (and was told
it succeeded) on a stream. -/
theorem C33_append (C : Codec) (zw : ZipWriter) (ops : List Op) :
    zw.writer.sink.bytes <+: (runOps C zw ops).2.writer.sink.bytes ∧
    (runOps C zw ops).2.writer.sink.closes = zw.writer.sink.closes ∧
    (runOps C zw ops).2.writer.sink.flushes = zw.writer.sink.flushes + opsFlushes ops (runOps C zw ops).1 := by
  have h := runOps_ext C ops zw
  obtain ⟨x, h1, _⟩ := h.bytes
  exact ⟨⟨x, h1.symm⟩, h.closes, h.flushes⟩

/-- C33, for closing the archive: nothing is flushed or closed. -/
theorem C33_append_close (zw : ZipWriter) (evs : List Ev) :
    zw.writer.sink.bytes <+: (closeArchive ⟨zw, evs⟩).2.zw.writer.sink.bytes ∧
    (closeArchive ⟨zw, evs⟩).2.zw.writer.sink.closes = zw.writer.sink.closes ∧
    (closeArchive ⟨zw, evs⟩).2.zw.writer.sink.flushes = zw.writer.sink.flushes := by
  have h := Grows.closeArchive ⟨zw, evs⟩
  obtain ⟨x, h1, _⟩ := h.bytes
  exact ⟨⟨x, h1.symm⟩, h.closes, h.flushes⟩

/-- C33, for closing a streamed entry: nothing is flushed or closed. -/
theorem C33_append_entry {C : Codec} (st : EntryStream C) (zw : ZipWriter) (evs : List Ev) :
    zw.writer.sink.bytes <+: (closeStream st ⟨zw, evs⟩).2.zw.writer.sink.bytes ∧
    (closeStream st ⟨zw, evs⟩).2.zw.writer.sink.closes = zw.writer.sink.closes ∧
    (closeStream st ⟨zw, evs⟩).2.zw.writer.sink.flushes = zw.writer.sink.flushes := by
  have h := Grows.closeStream st ⟨zw, evs⟩
  obtain ⟨x, h1, _⟩ := h.bytes
  exact ⟨⟨x, h1.symm⟩, h.closes, h.flushes⟩

/-- C33, concretely: one flush was asked for. -/
example : opsFlushes program (runOps markCodec fresh program).1 = 1 ∧
    (runOps markCodec fresh program).2.writer.sink.flushes = 1 := by rw [program_runs]; decide

/-! ## C34 -/

/-- C34. Writing the same whole entry from the same state, twice, under any two behaviours of the sink that let the call
complete: same result, same bytes, same state. -/
theorem C34_whole (C : Codec) (zw : ZipWriter) (e : ZipEntry) (d : Bytes) (pre : Bool) (evs evs' : List Ev)
    (h : Completed (writeWhole C e d pre ⟨zw, evs⟩).1) (h' : Completed (writeWhole C e d pre ⟨zw, evs'⟩).1) :
    (writeWhole C e d pre ⟨zw, evs⟩).1 = (writeWhole C e d pre ⟨zw, evs'⟩).1 ∧
    (writeWhole C e d pre ⟨zw, evs⟩).2.zw = (writeWhole C e d pre ⟨zw, evs'⟩).2.zw :=
  (Determined.writeWhole C e d pre).agree rfl rfl (completed_not h) (completed_not h')

/-- C34 for whole programs. Entries that are stored may be streamed in different pieces; the pieces given to a compressor
have to be the same. The writers agree after the programs, and so do the archives. -/
theorem C34_program (C : Codec) (zw : ZipWriter) (ops ops' : List Op) (evs evs' : List Ev)
    (hs : SamePrograms ops (runArchive C zw ops evs).1 ops' (runArchive C zw ops' evs').1)
    (h : Completed (runArchive C zw ops evs).2.1) (h' : Completed (runArchive C zw ops' evs').2.1) :
    (runArchive C zw ops evs).2 = (runArchive C zw ops' evs').2 := by
  have hz := runOps_same (C := C) ops ops' zw hs
  have h1 : (runArchive C zw ops evs).2 =
      ((closeArchive ⟨(runOps C zw ops).2, evs⟩).1, (closeArchive ⟨(runOps C zw ops).2, evs⟩).2.zw) := rfl
  have h2 : (runArchive C zw ops' evs').2 =
      ((closeArchive ⟨(runOps C zw ops').2, evs'⟩).1, (closeArchive ⟨(runOps C zw ops').2, evs'⟩).2.zw) := rfl
  rw [h1] at h ⊢
  rw [h2] at h' ⊢
  rw [← hz] at h' ⊢
  have := Determined.closeArchive.agree (zw := (runOps C zw ops).2) rfl rfl (completed_not h) (completed_not h')
  exact Prod.ext this.1 this.2

/-- C34 without closing the archive. -/
theorem C34_ops (C : Codec) (zw : ZipWriter) (ops ops' : List Op)
    (hs : SamePrograms ops (runOps C zw ops).1 ops' (runOps C zw ops').1) :
    (runOps C zw ops).2 = (runOps C zw ops').2 := runOps_same ops ops' zw hs

/-- C34, concretely: a sink that takes one byte every other time gives the same as one that takes everything. -/
example : Completed (writeWhole markCodec storedEntry [104, 105] false ⟨fresh, slow⟩).1 ∧
    Completed (writeWhole markCodec storedEntry [104, 105] false ⟨fresh, eager⟩).1 := by
  have h1 : (writeWhole markCodec storedEntry [104, 105] false ⟨fresh, slow⟩).1 = .ok () := by decide +kernel
  have h2 : (writeWhole markCodec storedEntry [104, 105] false ⟨fresh, eager⟩).1 = .ok () := by decide +kernel
  rw [h1, h2]
  exact ⟨fun _ h => (by cases h), fun _ h => (by cases h)⟩

/-- C34, concretely: the same three bytes streamed in two pieces by a slow sink and in one by a fast one. -/
def slowStream : List Op :=
  [.stream storedEntry false slow [.write [1, 2, 3] [.pending, .accept 2], .write [3] [.accept 9]] (.close slow)]
/-- The fast one. -/
def fastStream : List Op := [.stream storedEntry false eager [.write [1, 2, 3] [.accept 3]] (.close eager)]

example : SamePrograms slowStream (runOps markCodec fresh slowStream).1 fastStream (runOps markCodec fresh fastStream).1 := by
  have h1 : (runOps markCodec fresh slowStream).1 = [.stream (.ok ()) [.ok 2, .ok 1] (some (.ok ()))] := by decide +kernel
  have h2 : (runOps markCodec fresh fastStream).1 = [.stream (.ok ()) [.ok 3] (some (.ok ()))] := by decide +kernel
  rw [h1, h2]
  refine .cons (.stream _ _ _ _ _ _ _ _ _ _ _ _ ?_ ?_ ?_ ?_ ?_) .nil
  · intro _ h; cases h
  · intro _ h; cases h
  · decide
  · decide
  · exact Or.inl (Or.inr rfl)

/-! ## C35 -/

/-- The validation errors of a whole entry. -/
def validation : List ZipError := [.fileNameTooLarge, .commentTooLarge, .extraFieldTooLarge, .zip64Needed .largeFile]

/-- C35, as far as it holds. If writing a whole entry fails because the file name or comment is too long or because ZIP64
would be needed, or because the extra field is too long and the archive has not reached 4 GiB yet, then nothing was
written and the entry is not listed. -/
theorem C35_no_trace_partial (C : Codec) (zw : ZipWriter) (e : ZipEntry) (d : Bytes) (pre : Bool) (evs : List Ev) (v : ZipError)
    (hv : v ∈ validation) (hx : v = .extraFieldTooLarge → zw.writer.offset ≤ 0xFFFFFFFF)
    (h : (writeWhole C e d pre ⟨zw, evs⟩).1 = .error (.err v)) :
    (writeWhole C e d pre ⟨zw, evs⟩).2.zw.writer = zw.writer ∧
    (writeWhole C e d pre ⟨zw, evs⟩).2.zw.cdEntries = zw.cdEntries := by
  have hw : writeWhole C e d pre ⟨zw, evs⟩ = (.error (.err v), (writeWhole C e d pre ⟨zw, evs⟩).2) := by rw [← h]
  rcases writeWhole_error hw with h1 | ⟨p, em, hp, hl⟩
  · have := Quiet.wholePrepare C e d pre ⟨zw, evs⟩
    rw [h1] at this
    exact this
  · exfalso
    simp only [validation, List.mem_cons, List.not_mem_nil, or_false] at hv
    rcases hl with hl | hl | ⟨hl, h2⟩ | hl
    · rcases hl with hl | ⟨c, hl⟩ | hl <;> simp only [sinkErr, Except.error.injEq, Fail.err.injEq, reduceCtorEq] at hl <;>
        subst hl <;> simp at hv
    · cases hl
    · rcases h2 with h2 | h2
      · cases h2
        exact hl (hx rfl)
      · cases h2; simp at hv
    · cases hl; simp at hv

/-- C35. Too long a name, comment or extra field is always rejected with a validation error, before anything is written. -/
theorem C35_rejects (C : Codec) (zw : ZipWriter) (e : ZipEntry) (d : Bytes) (pre : Bool) (evs : List Ev)
    (hd : ¬ (e.compression = .deflate64 ∧ pre = false))
    (hbad : 65535 < e.filename.basic.length ∨ 65535 < e.comment.basic.length ∨
      (e.filename.isUtf8WithoutAlternative = true ∧ e.comment.isUtf8WithoutAlternative = true ∧
        65535 < extraCountBytes e.extraFields)) :
    ∃ v ∈ validation, (writeWhole C e d pre ⟨zw, evs⟩).1 = .error (.err v) ∧
      (writeWhole C e d pre ⟨zw, evs⟩).2.zw.writer = zw.writer ∧
      (writeWhole C e d pre ⟨zw, evs⟩).2.zw.cdEntries = zw.cdEntries := by
  obtain ⟨em, d', hm⟩ := measure_total (C := C) (data := d) hd
  obtain ⟨l, _, _, _, hem, _⟩ := wholeMeasure_ok hm
  have hv : ∃ v ∈ validation, wholeVerdict zw.forceNoZip64 zw.writer.offset em = some v := by
    unfold wholeVerdict
    split
    · exact ⟨_, by decide, rfl⟩
    split
    · exact ⟨_, by decide, rfl⟩
    rename_i hx
    split
    · exact ⟨_, by decide, rfl⟩
    rename_i hn
    split
    · exact ⟨_, by decide, rfl⟩
    rename_i hc
    exfalso
    have hf : em.filename = e.filename := by rw [hem]
    have hcm : em.comment = e.comment := by rw [hem]
    rw [hf] at hn
    rw [hcm] at hc
    rcases hbad with hb | hb | ⟨h1, h2, hb⟩
    · omega
    · omega
    · have hu : bothUtf8 em = true := by rw [bothUtf8, hf, hcm, h1, h2]; rfl
      rw [withUnicode, if_pos hu] at hx
      have := placed_count em zw.writer.offset
      rw [show em.extraFields = e.extraFields by rw [hem]] at this
      omega
  obtain ⟨v, hv1, hv2⟩ := hv
  obtain ⟨s', h1, h2⟩ := writeWhole_verdict (C := C) ⟨zw, evs⟩ hm hv2
  rw [h1]
  exact ⟨v, hv1, rfl, h2⟩

/-- An entry with an extra field of its own. -/
def withExtra (content : Bytes) : ZipEntry :=
  { ZipEntry.new ⟨.utf8, [97], none⟩ .stored with extraFields := [.unknown ⟨0x7777, UInt16.ofNat content.length, content⟩] }

theorem withExtra_count (content : Bytes) : extraCountBytes (withExtra content).extraFields = 4 + content.length := rfl

/-- After writing more than 4 GiB the position is beyond 4 GiB. -/
theorem huge_first (C : Codec) (data : Bytes) (h : data.length = 2 ^ 32) :
    ∃ evs, (runOp C fresh (.whole storedEntry data false evs)).1 = .whole (.ok ()) ∧
      0xFFFFFFFF < (runOp C fresh (.whole storedEntry data false evs)).2.writer.offset ∧
      (runOp C fresh (.whole storedEntry data false evs)).2.forceNoZip64 = false := by
  have hm : wholeMeasure C storedEntry data false = .ok ({ storedEntry with
      uncompressedSize := UInt64.ofNat data.length, crc32 := crc32 data, compressedSize := UInt64.ofNat data.length }, data) := rfl
  rw [h] at hm
  have hv : ∀ c, wholeVerdict false 0 { storedEntry with
      uncompressedSize := UInt64.ofNat (2 ^ 32), crc32 := c, compressedSize := UInt64.ofNat (2 ^ 32) } = none := by
    intro c
    have hb : Big { storedEntry with
      uncompressedSize := UInt64.ofNat (2 ^ 32), crc32 := c, compressedSize := UInt64.ofNat (2 ^ 32) } := by
      left; simp only; decide
    unfold wholeVerdict
    rw [if_neg (by simp), placed, if_pos hb]
    rfl
  obtain ⟨n, hn⟩ := whole_succeeds (C := C) (e := storedEntry) (data := data) (pre := false) (zw := fresh)
    (fun h => by cases h.1) hm (hv _) (by decide) 0
  rw [if_neg (by decide)] at hn
  have hr : (runOp C fresh (.whole storedEntry data false (List.replicate n (.accept (0 + 1))))).1 = .whole (.ok ()) := by
    rw [← hn]; rfl
  refine ⟨_, hr, ?_, ((runOp_ext C fresh _).force)⟩
  rcases runOp_step C fresh (.whole storedEntry data false (List.replicate n (.accept (0 + 1)))) with
    ⟨l, c, x, hask, hgood, _, hoff, _⟩ | ⟨hn, _, _⟩
  · rw [hr] at hask
    obtain ⟨hd, fs, extra, hloc, hex, hx⟩ := hgood.bytes
    have hl : l.stored = data := by
      cases hask with
      | whole e d evs r stored h hs =>
        rcases hs with ⟨_, rfl⟩ | ⟨h, _⟩
        · rfl
        · exact absurd rfl h
    rw [hoff, hx, hl, localBytes]
    simp only [List.length_append, h]
    omega
  · rw [hr] at hn
    exact absurd (Or.inl rfl) hn

theorem runOps_one (C : Codec) (zw : ZipWriter) (op : Op) : (runOps C zw [op]).2 = (runOp C zw op).2 := rfl

theorem late_extra (C : Codec) (content : Bytes) (hc : content.length = 65531) (zw : ZipWriter)
    (h2 : 0xFFFFFFFF < zw.writer.offset) (h3 : zw.forceNoZip64 = false) : ∃ evs',
    (writeWhole C (withExtra content) [1] false ⟨zw, evs'⟩).1 = .error (.err .extraFieldTooLarge) ∧
    zw.writer.offset < (writeWhole C (withExtra content) [1] false ⟨zw, evs'⟩).2.zw.writer.offset := by
  obtain ⟨n, r, zw', hown, hrun⟩ := WCompletes.writeWhole (c := 0) C (withExtra content) [1] false zw
  have hrun := hrun 0
  refine ⟨List.replicate (n + 0) (.accept (0 + 1)), ?_⟩
  generalize hem : ({ (withExtra content) with uncompressedSize := 1, crc32 := crc32 [1], compressedSize := 1 } : ZipEntry) = em
  have hm : wholeMeasure C (withExtra content) [1] false = .ok (em, [1]) := by rw [← hem]; rfl
  have hb : ¬ Big em := by rw [← hem]; unfold Big; simp only; decide
  have hpl : placed em zw.writer.offset = em := by rw [placed, if_neg hb]
  have hu : bothUtf8 em = true := by rw [← hem]; rfl
  have hx : extraCountBytes em.extraFields = 65535 := by rw [← hem]; exact (withExtra_count content).trans (by omega)
  have hv : wholeVerdict zw.forceNoZip64 zw.writer.offset em = none := by
    unfold wholeVerdict
    rw [h3, hpl, withUnicode, if_pos hu, hx, if_neg (by simp), if_neg (by omega)]
    rw [← hem]
    rfl
  cases hp : wholePrepare C (withExtra content) [1] false ⟨zw, List.replicate (n + 0) (.accept (0 + 1))⟩ with
  | mk q s1 =>
    cases q with
    | error x =>
      rcases wholePrepare_error hp with h | ⟨em', d, v, h1, _, h2⟩
      · rw [hm] at h; cases h
      · rw [hm] at h1
        simp only [Except.ok.injEq, Prod.mk.injEq] at h1
        obtain ⟨rfl, _⟩ := h1
        rw [hv] at h2; cases h2
    | ok p =>
      obtain ⟨em', hpf, hs1⟩ := wholePrepare_ok hp
      have := hpf.measure
      rw [hm] at this
      simp only [Except.ok.injEq, Prod.mk.injEq] at this
      obtain ⟨rfl, hdata⟩ := this
      simp only at hs1
      have hbu := hpf.builder
      simp only at hbu
      rw [if_neg (fun h => h.elim hb (by omega))] at hbu
      have hpe := hpf.entry
      simp only at hpe
      have hlate : wholeLateBuilder p = .error (.err .extraFieldTooLarge) := by
        unfold wholeLateBuilder
        rw [hbu]
        simp only
        have hf : p.entry.extraFields = em.extraFields := by
          rw [hpe, hpl, withUnicode, if_pos hu]
        show (tryU16 (extraCountBytes (p.entry.extraFields ++ [_])) .extraFieldTooLarge >>= _) = _
        rw [extraCount_append, hf, hx]
        rfl
      have hnp : (writeWhole C (withExtra content) [1] false ⟨zw, List.replicate (n + 0) (.accept (0 + 1))⟩).1 ≠ .error .panic :=
        NoP.writeWhole (fun h => by cases h.1) _
      obtain ⟨extra, w1, w2⟩ := writeWhole_late hp hlate (by rw [hrun]; exact Own.not hown) hnp
      refine ⟨w1, ?_⟩
      rw [w2, hs1]
      show zw.writer.offset < zw.writer.offset + (localBytes _ _ _ _).length
      have : 0 < (localBytes p.lfh p.entry.filename.basic extra p.data).length := by
        rw [localBytes, List.length_append]
        exact Nat.lt_of_lt_of_le (by decide) (Nat.le_add_right _ _)
      omega

/-- C35 does not hold in general. Beyond 4 GiB, an extra field with no room for the 12 bytes of a ZIP64 offset is reported as
too large only after header and data have been written (`src/base/write/entry_whole.rs:217-227`). The state is reachable:
one entry of 4 GiB comes first. -/
theorem C35_no_trace_fails (C : Codec) : ∃ evs evs', ∃ zw, zw =
      (runOps C fresh [.whole storedEntry (List.replicate (2 ^ 32) 0) false evs]).2 ∧
    (writeWhole C (withExtra (List.replicate 65531 0)) [1] false ⟨zw, evs'⟩).1 = .error (.err .extraFieldTooLarge) ∧
    zw.writer.offset < (writeWhole C (withExtra (List.replicate 65531 0)) [1] false ⟨zw, evs'⟩).2.zw.writer.offset := by
  obtain ⟨evs, _, h2, h3⟩ := huge_first C (List.replicate (2 ^ 32) 0) List.length_replicate
  obtain ⟨evs', h4⟩ := late_extra C (List.replicate 65531 0) List.length_replicate _ h2 h3
  exact ⟨evs, evs', _, (runOps_one C fresh _).symm, h4⟩

/-- C35, concretely: a name of 65536 bytes. -/
example : 65535 < ({ storedEntry with filename := ⟨.utf8, List.replicate 65536 97, none⟩ } : ZipEntry).filename.basic.length := by
  show 65535 < (List.replicate 65536 (97 : UInt8)).length
  rw [List.length_replicate]; decide

end AsyncZip
