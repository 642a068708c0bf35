import Verif.Proofs.WriteCount
import Verif.Proofs.WriteEmits
import Verif.Proofs.WriteClose
import Verif.Proofs.SampleCodec
import Verif.Samples.ProgramRuns
/-!
# C38, C47: forbidding ZIP64, and panics of the writer
-/

namespace AsyncZip
open Spec Samples

/-! ## C38: no ZIP64 structure is written -/

theorem Program.fields {C : Codec} {ops : List Op} {rs : List OpResult} {ls : List Listing} (h : Program C ops rs ls) :
    ∀ l ∈ ls, ∃ op ∈ ops, l.entry.extraFields = userFields op := by
  induction h with
  | nil => intro l hl; cases hl
  | listed ha _ ih =>
    intro l hl
    rcases List.mem_cons.1 hl with rfl | hl
    · refine ⟨_, List.mem_cons_self, ?_⟩
      cases ha <;> rfl
    · obtain ⟨op, h1, h2⟩ := ih l hl
      exact ⟨op, List.mem_cons_of_mem _ h1, h2⟩
  | other _ _ ih =>
    intro l hl
    obtain ⟨op, h1, h2⟩ := ih l hl
    exact ⟨op, List.mem_cons_of_mem _ h1, h2⟩

theorem runOps_force (C : Codec) (zw : ZipWriter) (ops : List Op) :
    (runOps C zw ops).2.forceNoZip64 = zw.forceNoZip64 := (runOps_ext C ops zw).force

/-- C38. The bytes any call adds while ZIP64 is forbidden (also if it fails, is cancelled or abandoned) are the beginning of a
local record whose extra fields have no ZIP64 field, unless the caller put one there. -/
theorem C38_local (C : Codec) (zw : ZipWriter) (op : Op) (hf : zw.forceNoZip64 = true) (hu : NoZip64 (userFields op)) :
    ∃ x, (runOp C zw op).2.writer.sink.bytes = zw.writer.sink.bytes ++ x ∧
      (x = [] ∨ ∃ (h : LocalFileHeader) (name : Bytes) (fs : List ExtraField) (extra tail : Bytes), NoZip64 fs ∧
        extraAsBytes fs = .ok extra ∧
        x <+: le32 LFH_SIGNATURE ++ (h.asSlice ++ (name ++ (extra ++ tail)))) :=
  runOp_force_local C zw op hf hu

/-- C38. Closing such an archive writes the central directory, one record after the other, none with a ZIP64 field, and
directly after it the classic end record; no ZIP64 end record or locator. -/
theorem C38_close (C : Codec) (sink sink' : Sink) (zw : ZipWriter) (h : Created sink zw) (hf : zw.forceNoZip64 = true)
    (hz : zw.isZip64 = false) (ops : List Op) (hu : ∀ op ∈ ops, NoZip64 (userFields op)) (evs : List Ev)
    (hc : (runArchive C zw ops evs).2.1 = .ok sink') :
    ∃ zw' cd h, zw' = (runOps C zw ops).2 ∧ Directory zw'.cdEntries cd ∧
      (∀ c ∈ zw'.cdEntries, NoZip64 c.entry.extraFields) ∧
      sink'.bytes = zw'.writer.sink.bytes ++ (cd ++ (le32 EOCDR_SIGNATURE ++
        (EndOfCentralDirectoryHeader.asSlice h ++ commentBytes zw'.commentOpt))) := by
  have hclose : (closeArchive ⟨(runOps C zw ops).2, evs⟩).1 = .ok sink' := hc
  obtain ⟨_, _, hfacts⟩ := Created.facts h
  obtain ⟨hw, he, _⟩ := Created.facts h
  obtain ⟨out, ps, hst, _, hprog, _⟩ := runOps_state C True ops zw [] [] (State.new _ _ (by rw [hw]) he) (Or.inl trivial)
  obtain ⟨cd, z, hdir, hoff, hzz, hb, _⟩ := closeArchive_ok (s' := (closeArchive ⟨(runOps C zw ops).2, evs⟩).2)
    (Prod.ext hclose rfl)
  have hz0 : (runOps C zw ops).2.isZip64 = false := (runOps_keepsZ C ops zw hf).trans hz
  have hforce : (runOps C zw ops).2.forceNoZip64 = true := (runOps_force C zw ops).trans hf
  have hsmall : ¬ (runOps C zw ops).2.writer.offset > 0xFFFFFFFF := fun h => by
    have := hoff h; rw [hforce] at this; cases this
  have hzf : z = false := by rw [hzz, hz0, decide_eq_false hsmall]; rfl
  refine ⟨_, cd, eocdrOf (runOps C zw ops).2.cdEntries.length cd.length (runOps C zw ops).2.writer.offset
    (commentBytes (runOps C zw ops).2.commentOpt), rfl, hdir, ?_, ?_⟩
  · intro c hcm
    have hent := hst.entries
    rw [hent] at hcm
    obtain ⟨p, hp, rfl⟩ := List.mem_map.1 hcm
    have hbody := hst.body
    rw [hforce] at hbody
    obtain ⟨a, x, rest, _, hg⟩ := hbody.mem p hp
    obtain ⟨op, ho, hfs⟩ := Program.fields hprog p.1 (List.mem_map_of_mem hp)
    have hno : NoZip64 p.1.entry.extraFields := by rw [hfs]; exact hu op ho
    obtain ⟨g1, g2, g3⟩ := hg.small rfl
    have hcar := hg.describes.carries
    have hrec : (p.1.recorded true).1 ≤ 0xFFFFFFFF ∧ (p.1.recorded true).2 ≤ 0xFFFFFFFF := by
      unfold Listing.recorded
      split
      · exact ⟨g2, g1⟩
      · exact ⟨g1, g2⟩
    revert hcar
    generalize p.2.header = hdr
    generalize p.2.entry.extraFields = fs
    intro hcar
    cases hcar with
    | plain _ _ _ _ _ _ _ => exact noZip64_withUnicode hno
    | big _ hb _ _ _ =>
      rcases hb with hb | hb
      · exact absurd hrec.1 (gt_of_not_le64 hb)
      · exact absurd hrec.2 (gt_of_not_le64 hb)
    | far _ _ _ ho' _ _ _ => exact absurd g3 ho'
    | stream hn _ _ _ _ => cases hn
  · rw [hb, hzf, endBytes, if_neg (fun h => by cases h), List.nil_append]

/-! ## C47 -/

theorem runOp_panic (C : Codec) (zw : ZipWriter) (op : Op) (h : Panicked (runOp C zw op).1) :
    AsksDeflate64 op ∨ (C.latePanics = true ∧ WritesClosed op) := by
  cases op with
  | comment c => exact h.elim
  | whole e d pre evs =>
    have h' : (writeWhole C e d pre ⟨zw, evs⟩).1 = .error .panic := h
    exact Or.inl (Classical.byContradiction fun hn => NoP.writeWhole hn _ h')
  | stream e pre evs acts fin =>
    refine Classical.byContradiction fun hn => ?_
    rw [not_or] at hn
    obtain ⟨hn, hl⟩ := hn
    cases ho : openStream C e pre ⟨zw, evs⟩ with
    | mk q s =>
      cases q with
      | error y =>
        rw [runOp_open_error ho] at h
        rcases h with h | h | h
        · exact NoP.openStream hn ⟨zw, evs⟩ (by rw [ho]; cases h; rfl)
        · cases h
        · cases h
      | ok st =>
        obtain ⟨rs2, zw2, st2, em, f, h1, _, _⟩ := runActs_spec acts s.zw st
        have hno : ∀ r ∈ rs2, r ≠ .error .panic := by
          rintro r hr rfl
          have := runActs_error acts s.zw st (.error .panic) (by rw [h1]; exact hr) _ rfl
          rcases this with hw | ⟨_, hp, b, hb, hu⟩
          · exact winterrupted_not_panic hw rfl
          · refine hl ⟨hp, ?_⟩
            obtain ⟨lf, extra, enc, o1, o2, o3, o4, o5, _⟩ := openStream_ok ho
            rw [o5] at hb
            rcases encFromRaw_ok o3 with ⟨rfl, _⟩ | ⟨rfl, p1, p2, _⟩
            · cases hb
            · cases hb
              exact ⟨p1, p2, hu.resolve_right fun h => by cases h.1⟩
        cases fin with
        | abandon =>
          rw [runOp_abandon ho h1] at h
          rcases h with h | h | h
          · cases h
          · exact hno _ h rfl
          · cases h
        | close evs' =>
          cases hc : closeStream st2 ⟨zw2, evs'⟩ with
          | mk r' t =>
            rw [runOp_close ho h1 hc] at h
            rcases h with h | h | h
            · cases h
            · exact hno _ h rfl
            · cases h
              exact NoP.closeStream st2 ⟨zw2, evs'⟩ (by rw [hc])

/-- C47. In any program, a call panics only if it asks the crate to compress with Deflate64, or goes on using the writer of a
compressed entry after closing it through `AsyncWrite`, and the compression library panics on that. -/
theorem C47_calls_partial (C : Codec) (zw : ZipWriter) (ops : List Op) :
    List.Forall₂ (fun op r => Panicked r → AsksDeflate64 op ∨ (C.latePanics = true ∧ WritesClosed op)) ops
      (runOps C zw ops).1 := by
  induction ops generalizing zw with
  | nil => exact .nil
  | cons op ops ih => exact .cons (runOp_panic C zw op) (ih _)

/-- C47. Closing the archive never panics, after any program. -/
theorem C47_close (C : Codec) (sink : Sink) (zw : ZipWriter) (h : Created sink zw) (ops : List Op) (evs : List Ev) :
    (runArchive C zw ops evs).2.1 ≠ .error .panic := by
  obtain ⟨hw, he, _⟩ := Created.facts h
  obtain ⟨out, ps, hst, _, _⟩ := runOps_state C True ops zw [] [] (State.new _ _ (by rw [hw]) he) (Or.inl trivial)
  refine closeArchive_no_panic _ _ fun c hc => ?_
  rw [hst.entries] at hc
  obtain ⟨p, hp, rfl⟩ := List.mem_map.1 hc
  obtain ⟨a, x, rest, _, hg⟩ := hst.body.mem p hp
  exact hg.fits

/-! ## C38: what would need ZIP64 is reported -/

/-- C38. Writing a whole entry beyond 4 GiB, or an entry one of whose sizes exceeds the field, fails with `Zip64Needed`
before anything is written. -/
theorem C38_reports_whole (C : Codec) (zw : ZipWriter) (hf : zw.forceNoZip64 = true) (e : ZipEntry) (d : Bytes) (pre : Bool)
    (evs : List Ev) (hd : ¬ (e.compression = .deflate64 ∧ pre = false))
    (hbig : 0xFFFFFFFF < zw.writer.offset ∨
      (pre = false ∧ 0xFFFFFFFF < d.length ∧ d.length < 2 ^ 64) ∨
      (pre = true ∧ 0xFFFFFFFF < e.uncompressedSize) ∨
      (∃ em stored, wholeMeasure C e d pre = .ok (em, stored) ∧ 0xFFFFFFFF < stored.length ∧ stored.length < 2 ^ 64)) :
    (writeWhole C e d pre ⟨zw, evs⟩).1 = .error (.err (.zip64Needed .largeFile)) ∧
    (writeWhole C e d pre ⟨zw, evs⟩).2.zw.writer = zw.writer ∧
    (writeWhole C e d pre ⟨zw, evs⟩).2.zw.cdEntries = zw.cdEntries := by
  obtain ⟨em, d', hm⟩ := measure_total (C := C) (data := d) hd
  obtain ⟨l, l1, l2, l3, hem, hpre, hno⟩ := wholeMeasure_ok hm
  have big : ∀ n : Nat, 0xFFFFFFFF < n → n < 2 ^ 64 → 0xFFFFFFFF < UInt64.ofNat n := by
    intro n h1 h2
    rw [UInt64.lt_iff_toNat_lt, UInt64.toNat_ofNat', Nat.mod_eq_of_lt h2]
    exact h1
  have hv : wholeVerdict zw.forceNoZip64 zw.writer.offset em = some (.zip64Needed .largeFile) := by
    unfold wholeVerdict
    refine if_pos ⟨hf, ?_⟩
    rcases hbig with h | ⟨h, h1, h2⟩ | ⟨h, h1⟩ | ⟨em', d'', h, h1, h2⟩
    · right; omega
    · left
      left
      rw [hem]
      obtain ⟨_, b, _⟩ := hno h
      simp only
      rw [b]
      exact big _ h1 h2
    · left
      left
      rw [hem]
      obtain ⟨_, b, _⟩ := hpre h
      simp only
      rw [b]
      exact h1
    · left
      right
      rw [hm] at h
      simp only [Except.ok.injEq, Prod.mk.injEq] at h
      obtain ⟨_, rfl⟩ := h
      rw [hem]
      simp only
      rw [Listing.cs, l3]
      exact big _ h1 h2
  obtain ⟨s', h1, h2⟩ := writeWhole_verdict (C := C) ⟨zw, evs⟩ hm hv
  rw [h1]
  exact ⟨rfl, h2⟩

/-- C38. A stream for an entry whose declared sizes are too large is not opened at all. -/
theorem C38_reports_open (C : Codec) (zw : ZipWriter) (hf : zw.forceNoZip64 = true) (e : ZipEntry) (pre : Bool) (evs : List Ev)
    (hbig : 0xFFFFFFFF < e.uncompressedSize ∨ 0xFFFFFFFF < e.compressedSize) :
    openStream C e pre ⟨zw, evs⟩ = (.error (.err (.zip64Needed .largeFile)), ⟨zw, evs⟩) :=
  openStream_force_reports hf hbig

/-- C38. Closing a streamed entry that begins beyond 4 GiB, or that was given more than 4 GiB of data, fails with
`Zip64Needed` (if the sink lets the call come that far). -/
theorem C38_reports_stream (C : Codec) (zw zw1 : ZipWriter) (hf : zw.forceNoZip64 = true) (e : ZipEntry) (pre : Bool)
    (evs evs' : List Ev) (acts : List StreamAct) (rs : List (Res Nat)) (r : Res Unit)
    (h : runOp C zw (.stream e pre evs acts (.close evs')) = (.stream (.ok ()) rs (some r), zw1)) (hr : Completed r)
    (hbig : 0xFFFFFFFF < zw.writer.offset ∨ (0xFFFFFFFF < (accepted acts rs).length ∧ (accepted acts rs).length < 2 ^ 64)) :
    r = .error (.err (.zip64Needed .largeFile)) := stream_force_reports h hf (completed_not hr) hbig

/-- C38. A listed call that makes more than 65535 entries reports `Zip64Needed`; otherwise it reports success. -/
theorem C38_reports_count (C : Codec) (zw : ZipWriter) (op : Op) (r : Res Unit)
    (h : (runOp C zw op).1 = .whole r ∨ ∃ rs, (runOp C zw op).1 = .stream (.ok ()) rs (some r)) (hl : Listed r) :
    r = if 0xFFFF < zw.cdEntries.length + 1 ∧ zw.forceNoZip64 = true
      then .error (.err (.zip64Needed .tooManyFiles)) else .ok () := by
  cases op with
  | comment c =>
    rcases h with h | ⟨rs, h⟩ <;> cases h
  | whole e d pre evs =>
    rcases h with h | ⟨rs, h⟩
    · have h' : OpResult.whole (writeWhole C e d pre ⟨zw, evs⟩).1 = .whole r := h
      cases h'
      exact Counts.writeWhole C e d pre ⟨zw, evs⟩ hl
    · cases h
  | stream e pre evs acts fin =>
    cases ho : openStream C e pre ⟨zw, evs⟩ with
    | mk q s =>
      cases q with
      | error y =>
        rw [runOp_open_error ho] at h
        rcases h with h | ⟨rs, h⟩ <;> cases h
      | ok st =>
        cases ha : runActs s.zw st acts with
        | mk rs' p =>
          obtain ⟨zw', st'⟩ := p
          obtain ⟨rs2, zw2, st2, em, f, h1, _, h2, _⟩ := runActs_spec acts s.zw st
          rw [h1] at ha
          simp only [Prod.mk.injEq] at ha
          obtain ⟨rfl, rfl, rfl⟩ := ha
          cases fin with
          | abandon =>
            rw [runOp_abandon ho h1] at h
            rcases h with h | ⟨rs, h⟩ <;> cases h
          | close evs' =>
            cases hc : closeStream st2 ⟨zw2, evs'⟩ with
            | mk r' t =>
              rw [runOp_close ho h1 hc] at h
              rcases h with h | ⟨rs, h⟩
              · cases h
              · cases h
                have := Counts.closeStream st2 ⟨zw2, evs'⟩ (by rw [hc]; exact hl)
                rw [hc] at this
                have hk := (KeepsCd.openStream C e pre ⟨zw, evs⟩)
                rw [ho] at hk
                simp only at this hk
                rw [this]
                have hg := (Grows.openStream C e pre ⟨zw, evs⟩).force
                rw [ho] at hg
                rw [h2.writer]
                show _ = if 0xFFFF < zw.cdEntries.length + 1 ∧ zw.forceNoZip64 = true then _ else _
                rw [← hk, ← show s.zw.forceNoZip64 = zw.forceNoZip64 from hg]
                rfl

theorem Wr.bind_get {β : Type} {f : ZipWriter → Wr β} {s : WSt} : (Wr.get >>= f) s = f s.zw s := rfl

theorem errs_cdEntries (cs : List CdEntry) :
    Errs (fun e => WInterrupted (.error e : Res Unit) ∨ e = .panic) (writeCdEntries cs) := by
  have hw : ∀ b, Errs (fun e => WInterrupted (.error e : Res Unit) ∨ e = .panic) (Wr.writeAll b) :=
    fun b => Errs.writeAll (fun e h => Or.inl h) b
  induction cs with
  | nil => exact Errs.pure
  | cons c cs ih =>
    exact Errs.bind (Errs.bind (hw _) fun _ => Errs.bind (hw _) fun _ => Errs.bind (hw _) fun _ =>
      Errs.bind (Errs.lift fun e h => Or.inr (errsR_extra _ e h)) fun _ => Errs.bind (hw _) fun _ => hw _) fun _ => ih

theorem closeArchive_far (zw : ZipWriter) (evs : List Ev) (hf : zw.forceNoZip64 = true) (hbig : 0xFFFFFFFF < zw.writer.offset)
    (hr : ¬ WInterrupted (closeArchive ⟨zw, evs⟩).1) (hp : (closeArchive ⟨zw, evs⟩).1 ≠ .error .panic) :
    (closeArchive ⟨zw, evs⟩).1 = .error (.err (.zip64Needed .largeFile)) := by
  unfold closeArchive at hr hp ⊢
  rw [Wr.bind_get] at hr hp ⊢
  cases hc : writeCdEntries zw.cdEntries ⟨zw, evs⟩ with
  | mk q s1 =>
    cases q with
    | error x =>
      simp only at hr hp ⊢
      rw [Wr.bind_err hc] at hr hp ⊢
      rcases errs_cdEntries _ _ x (by rw [hc]) with h | h
      · exact absurd h.cast hr
      · exact absurd (by rw [h]) hp
    | ok u =>
      obtain ⟨cd, _, hs⟩ := writeCdEntries_ok hc
      simp only at hr hp hs ⊢
      rw [Wr.bind_ok hc, Wr.bind_get]
      have : closeCheckOffset zw.writer.offset s1 = (.error (.err (.zip64Needed .largeFile)), s1) := by
        unfold closeCheckOffset
        rw [if_pos hbig, Wr.bind_get, if_pos (by rw [hs]; exact hf)]
        rfl
      rw [Wr.bind_err this]

/-- C38. Closing an archive whose directory would begin beyond 4 GiB fails with `Zip64Needed` (if the sink lets the call come
that far). -/
theorem C38_reports_close (C : Codec) (sink : Sink) (zw : ZipWriter) (h : Created sink zw) (hf : zw.forceNoZip64 = true)
    (ops : List Op) (evs : List Ev) (hbig : 0xFFFFFFFF < (runOps C zw ops).2.writer.offset)
    (hr : Completed (runArchive C zw ops evs).2.1) :
    (runArchive C zw ops evs).2.1 = .error (.err (.zip64Needed .largeFile)) :=
  closeArchive_far _ evs ((runOps_force C zw ops).trans hf) hbig (completed_not hr) (C47_close C sink zw h ops evs)

/-! ## C47: the exception -/

theorem isPanic {α : Type} {r : Res α} (h : (match r with | .error .panic => true | _ => false) = true) : r = .error .panic := by
  split at h
  · rfl
  · cases h

/-- C47. Asking for Deflate64 does panic, for a stream after the local header was written. -/
theorem C47_deflate64_panics : ∃ e : ZipEntry, e.compression = .deflate64 ∧
    (writeWhole markCodec e [1] false ⟨fresh, eager⟩).1 = .error .panic ∧
    (openStream markCodec e false ⟨fresh, eager⟩).1 = .error .panic ∧
    0 < (openStream markCodec e false ⟨fresh, eager⟩).2.zw.writer.offset :=
  ⟨{ storedEntry with compression := .deflate64 }, rfl, by decide +kernel, isPanic (by decide +kernel), by decide +kernel⟩

/-- C47, the rest. Going on after closing the writer of a compressed entry does panic with such a library; the panic passes
through `EntryStreamWriter::poll_write` and `poll_flush`, which do not remember that they were closed. -/
theorem C47_closed_fails : ∃ op : Op, WritesClosed op ∧ ¬ AsksDeflate64 op ∧ Panicked (runOp markCodec fresh op).1 := by
  refine ⟨.stream deflatedEntry false eager [.write [1] eager, .shut eager, .write [2] eager, .flush eager] (.close eager),
    ⟨rfl, by decide, rfl⟩, (fun h => by cases h.1), ?_⟩
  have : (runOp markCodec fresh (.stream deflatedEntry false eager
      [.write [1] eager, .shut eager, .write [2] eager, .flush eager] (.close eager))).1 =
      .stream (.ok ()) [.ok 1, .ok 0, .error .panic, .error .panic] (some (.ok ())) := by decide +kernel
  rw [this]
  exact Or.inr (Or.inl (by simp))

/-- C47 is about the writer; the public function `compress` panics for stored entries as well
(`src/base/write/entry_whole.rs:252-297`). -/
theorem C47_compress_panics (C : Codec) (e : ZipEntry) (d : Bytes) :
    compress C e d = .error .panic ↔ e.compression = .stored ∨ e.compression = .deflate64 := by
  unfold compress
  cases e.compression <;> simp

/-! ## The hypotheses are met -/

/-- A new archive without ZIP64. -/
def small : ZipWriter := fresh.withForceNoZip64

example : Created ⟨[], 0, 0⟩ small ∧ small.forceNoZip64 = true ∧ small.isZip64 = false ∧
    ∀ op ∈ program, NoZip64 (userFields op) := by
  refine ⟨.noZip64 .new, rfl, rfl, ?_⟩
  intro op hop
  simp only [program, List.mem_cons, List.not_mem_nil, or_false] at hop
  rcases hop with rfl | rfl | rfl | rfl | rfl <;> exact fun f h => by cases h

/-- One file, written and closed without ZIP64. -/
example : ((runArchive markCodec small [.whole storedEntry [104, 105] false slow] eager).2.1.toOption).isSome = true := by
  decide +kernel

/-- After a file of 4 GiB - 1 bytes the position is beyond 4 GiB, ZIP64 or not. -/
theorem nearly_huge (C : Codec) (data : Bytes) (h : data.length = 0xFFFFFFFF) :
    ∃ evs, (runOp C small (.whole storedEntry data false evs)).1 = .whole (.ok ()) ∧
      0xFFFFFFFF < (runOp C small (.whole storedEntry data false evs)).2.writer.offset := by
  have hm : wholeMeasure C storedEntry data false = .ok ({ storedEntry with
      uncompressedSize := UInt64.ofNat data.length, crc32 := crc32 data, compressedSize := UInt64.ofNat data.length }, data) := rfl
  rw [h] at hm
  have hv : ∀ c, wholeVerdict true 0 { storedEntry with
      uncompressedSize := UInt64.ofNat 0xFFFFFFFF, crc32 := c, compressedSize := UInt64.ofNat 0xFFFFFFFF } = none := by
    intro c
    have hb : ¬ Big { storedEntry with
      uncompressedSize := UInt64.ofNat 0xFFFFFFFF, crc32 := c, compressedSize := UInt64.ofNat 0xFFFFFFFF } := by
      unfold Big; simp only; decide
    unfold wholeVerdict
    rw [if_neg (fun h => h.2.elim hb (fun h => h (by decide))), placed, if_neg hb]
    rfl
  obtain ⟨n, hn⟩ := whole_succeeds (C := C) (e := storedEntry) (data := data) (pre := false) (zw := small)
    (fun h => by cases h.1) hm (hv _) (by decide) 0
  rw [if_neg (by decide)] at hn
  have hr : (runOp C small (.whole storedEntry data false (List.replicate n (.accept (0 + 1))))).1 = .whole (.ok ()) := by
    rw [← hn]; rfl
  refine ⟨_, hr, ?_⟩
  rcases runOp_step C small (.whole storedEntry data false (List.replicate n (.accept (0 + 1)))) with
    ⟨l, c, x, hask, hgood, _, hoff, _⟩ | ⟨hn, _, _⟩
  · rw [hr] at hask
    obtain ⟨hd, fs, extra, hloc, hex, hx⟩ := hgood.bytes
    have hl : l.stored = data := by
      cases hask with
      | whole e d evs r stored h hs =>
        rcases hs with ⟨_, rfl⟩ | ⟨h, _⟩
        · rfl
        · exact absurd rfl h
    have h4 : (le32 LFH_SIGNATURE).length = 4 := rfl
    rw [hoff, hx, hl, localBytes]
    simp only [List.length_append, h, h4]
    omega
  · rw [hr] at hn
    exact absurd (Or.inl rfl) hn

theorem beyond (C : Codec) (data : Bytes) (h : data.length = 0xFFFFFFFF) :
    ∃ ops, 0xFFFFFFFF < (runOps C small ops).2.writer.offset := by
  obtain ⟨evs, _, h⟩ := nearly_huge C data h
  exact ⟨[.whole storedEntry data false evs], h⟩

/-- So entries, streams and the directory beyond 4 GiB do occur without ZIP64. -/
example (C : Codec) : ∃ ops, 0xFFFFFFFF < (runOps C small ops).2.writer.offset :=
  beyond C (List.replicate 0xFFFFFFFF 0) List.length_replicate

/-- And so do more than 65535 entries. -/
theorem many_files (C : Codec) : ∃ ops op, (runOps C small ops).2.cdEntries.length = 0xFFFF ∧
    (runOp C (runOps C small ops).2 op).1 = .whole (.error (.err (.zip64Needed .tooManyFiles))) ∧
    (runOp C (runOps C small ops).2 op).2.cdEntries.length = 0x10000 := by
  obtain ⟨ops, _, h1, h2, cs, h3, h4, _⟩ := blanks_written C 0 (by decide) 0xFFFF small (by decide) (by decide)
  have hlen : (runOps C small ops).2.cdEntries.length = 0xFFFF := by
    rw [h3, List.length_append, h4]; rfl
  have hoff : (runOps C small ops).2.writer.offset ≤ 0xFFFFFFFF := by rw [h2]; decide
  obtain ⟨evs, h5, _, c, h6, _⟩ := blank_written C 0 (by decide) (runOps C small ops).2 hoff
  refine ⟨ops, .whole (blank 0) [] false evs, hlen, ?_, ?_⟩
  · rw [h5, if_pos ⟨by rw [hlen]; decide, runOps_force C small ops⟩]; rfl
  · rw [h6, List.length_append, hlen]; rfl

end AsyncZip
