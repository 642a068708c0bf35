import Verif.Proofs.Directory
import Verif.Props.RoundTrip
/-!
# C36, C39, C40: what the bytes of a closed archive say
-/

namespace AsyncZip
open Spec Rd

theorem forall₂_zip {α β γ : Type} {R : α → β → Prop} {Q : α × β → γ → Prop} : ∀ {as : List α} {bs : List β} {cs : List γ},
    List.Forall₂ R as bs → List.Forall₂ Q (as.zip bs) cs → List.Forall₂ (fun q c => R q.1 q.2 ∧ Q q c) (as.zip bs) cs := by
  intro as bs cs h
  induction h generalizing cs with
  | nil => intro h; cases h; exact .nil
  | cons h _ ih =>
    intro hq
    cases hq with
    | cons h' hq => exact .cons ⟨h, h'⟩ (ih hq)

/-- Everything at once. -/
theorem Finished.onBytes {C : Codec} {zw : ZipWriter} {ops : List Op} {evs : List Ev}
    {bytes out cd : Bytes} {J : Prop} {ps : List (Listing × CdEntry)} {offs : List Nat} {z : Bool}
    (fin : Finished C zw ops evs bytes J out ps offs cd z) (hown : ∀ op ∈ ops, NoZip64 (userFields op))
    (hsize : bytes.length < 2 ^ 64) :
    ∃ js, DirectoryOf bytes z (archiveComment ops) out.length (out.length + cd.length) js ∧
      List.Forall₂ (fun (q : Listing × Nat) j => (OccursAt bytes sigLocal q.2 ∧ OccursAt bytes q.1.entry.filename.basic (q.2 + 30)) ∧
        Describes32 bytes j q.1 ∧ ((∀ f ∈ q.1.entry.extraFields, OwnField f) →
          (¬ Clash q.2 q.1 →
            Declares bytes j (q.1.recorded zw.forceNoZip64).1.toNat (q.1.recorded zw.forceNoZip64).2.toNat q.2) ∧
          (Clash q.2 q.1 → Declares bytes j (clashSizes q.2 q.1).1 (clashSizes q.2 q.1).2 0xFFFFFFFF)))
        ((ps.map Prod.fst).zip offs) js ∧
      js.length = ps.length ∧
      ((archiveComment ops).length ≤ 65535 →
        EndAt bytes (endPosition bytes (archiveComment ops)) ps.length cd.length out.length (archiveComment ops)) ∧
      (z = true → Zip64EndAt bytes (out.length + cd.length) ps.length cd.length out.length) := by
  have hb := fin.bytes
  rw [commentBytes_eq] at hb
  have hl := archive_length out cd z ps.length (archiveComment ops)
  rw [← hb] at hl
  have hea : endAt out cd z = out.length + cd.length + if z = true then 76 else 0 := rfl
  have hdd := archive_drop_cd out cd z ps.length (archiveComment ops)
  rw [← hb] at hdd
  have hno : ∀ p ∈ ps, NoZip64 p.1.entry.extraFields := by
    intro p hp
    obtain ⟨op, ho, hfs⟩ := Program.fields fin.program p.1 (List.mem_map_of_mem hp)
    rw [hfs]
    exact hown op ho
  have hplaced := forall₂_mem fin.placed
  obtain ⟨js, h1, h2⟩ := fin.directory.positions (force := zw.forceNoZip64) hdd (offs := offs) (hplaced.imp fun p off hp => by
    obtain ⟨hpm, a, x, rest, hout, ha, g⟩ := hp
    refine ⟨⟨x, g⟩, hno p hpm, ?_⟩
    have := congrArg List.length hout
    rw [List.length_append] at this
    omega)
  have h3 : List.Forall₂ (fun l off => OccursAt bytes sigLocal off ∧ OccursAt bytes l.entry.filename.basic (off + 30))
      (ps.map Prod.fst) offs := by
    rw [List.forall₂_map_left_iff]
    refine fin.placed.imp fun p off hp => ?_
    rw [fin.bytes]
    exact hp.header
  refine ⟨js, ⟨h1, ?_⟩, forall₂_zip h3 h2, ?_, fun hcom => ?_, fun hz => ?_⟩
  · rw [hl, hea]
  · rw [← h2.length_eq, List.length_zip, List.length_map, ← fin.placed.length_eq, Nat.min_self]
  · have := end_at out cd z ps.length (archiveComment ops) hcom
    rw [← hb] at this
    rwa [show endPosition bytes (archiveComment ops) = endAt out cd z by unfold endPosition; omega]
  · have := zip64_at out cd ps.length (archiveComment ops) (by
      have := fin.directory.length
      rw [List.length_map] at this
      omega) (by omega)
    rw [← hz, ← hb] at this
    exact this

/-- C36. In every closed archive, whatever failed, was cancelled or abandoned on the way, the local header offset that the
bytes of each directory record give (with ZIP64, per APPNOTE) is where a local header signature followed by that entry's
name is. Partial: the caller's extra fields are truthful and not ZIP64, and `Clash` is excluded. -/
theorem C36_offsets_partial (C : Codec) (sink sink' : Sink) (zw : ZipWriter) (h : Created sink zw) (hs : sink.bytes = [])
    (ops : List Op) (evs : List Ev) (hc : (runArchive C zw ops evs).2.1 = .ok sink')
    (hown : ∀ op ∈ ops, ∀ f ∈ userFields op, OwnField f) (hsize : sink'.bytes.length < 2 ^ 64) :
    ∃ ls offs dir stop js, Program C ops (runArchive C zw ops evs).1 ls ∧ ls.length = offs.length ∧
      DirectoryOf sink'.bytes (runArchive C zw ops evs).2.2.isZip64 (archiveComment ops) dir stop js ∧
      List.Forall₂ (fun (q : Listing × Nat) j => OccursAt sink'.bytes sigLocal q.2 ∧
        OccursAt sink'.bytes q.1.entry.filename.basic (q.2 + 30) ∧ Describes32 sink'.bytes j q.1 ∧
        (¬ Clash q.2 q.1 → ∃ us cs, Declares sink'.bytes j us cs q.2)) (ls.zip offs) js := by
  obtain ⟨out, ps, offs, cd, z, fin⟩ := finished h hs hc (J := True) (Or.inl trivial)
  obtain ⟨js, h1, h2, _⟩ := fin.onBytes (fun op ho f hf => (hown op ho f hf).1) hsize
  refine ⟨ps.map Prod.fst, offs, out.length, out.length + cd.length, js, fin.program, ?_, ?_, ?_⟩
  · rw [List.length_map]; exact fin.placed.length_eq
  · rw [← fin.zip]; exact h1
  · refine (forall₂_mem h2).imp fun q j hq => ⟨hq.2.1.1, hq.2.1.2, hq.2.2.1, fun hcl => ⟨_, _, (hq.2.2.2 ?_).1 hcl⟩⟩
    obtain ⟨p, hp, hpq⟩ := List.mem_map.1 (List.of_mem_zip hq.1).1
    rw [← hpq]
    exact fin.own hown p hp

/-- C40. After every directory come end records that give its true place, size and number of entries: the classic record as
far as the values fit its fields, and with ZIP64 the ZIP64 record, which is where the locator says. -/
theorem C40_end_records_partial (C : Codec) (sink sink' : Sink) (zw : ZipWriter) (h : Created sink zw) (hs : sink.bytes = [])
    (ops : List Op) (evs : List Ev) (hc : (runArchive C zw ops evs).2.1 = .ok sink')
    (hown : ∀ op ∈ ops, NoZip64 (userFields op)) (hcom : (archiveComment ops).length ≤ 65535)
    (hsize : sink'.bytes.length < 2 ^ 64) :
    ∃ ls dir stop js, Program C ops (runArchive C zw ops evs).1 ls ∧ dir ≤ stop ∧ js.length = ls.length ∧
      DirectoryOf sink'.bytes (runArchive C zw ops evs).2.2.isZip64 (archiveComment ops) dir stop js ∧
      EndAt sink'.bytes (endPosition sink'.bytes (archiveComment ops)) ls.length (stop - dir) dir (archiveComment ops) ∧
      ((runArchive C zw ops evs).2.2.isZip64 = true → Zip64EndAt sink'.bytes stop ls.length (stop - dir) dir) := by
  obtain ⟨out, ps, offs, cd, z, fin⟩ := finished h hs hc (J := True) (Or.inl trivial)
  obtain ⟨js, h1, h2, h3, h4, h5⟩ := fin.onBytes hown hsize
  rw [← fin.zip]
  refine ⟨ps.map Prod.fst, out.length, out.length + cd.length, js, fin.program, Nat.le_add_right _ _, ?_, h1, ?_, fun hz => ?_⟩
  · rw [List.length_map]; exact h3
  · rw [List.length_map, Nat.add_sub_cancel_left]; exact h4 hcom
  · rw [List.length_map, Nat.add_sub_cancel_left]; exact h5 hz

/-- C39. Sizes and offsets of any magnitude are recovered from the directory's bytes, and the archive is ZIP64 when an entry
needs it, when there are more than 65535 of them (both unless ZIP64 is forbidden) and when the directory is beyond 4 GiB.
Partial: see `C36_offsets_partial`; with `force_no_zip64` the sizes of streamed entries are exchanged. -/
theorem C39_values_partial (C : Codec) (sink sink' : Sink) (zw : ZipWriter) (h : Created sink zw) (hs : sink.bytes = [])
    (ops : List Op) (evs : List Ev) (hc : (runArchive C zw ops evs).2.1 = .ok sink')
    (hown : ∀ op ∈ ops, ∀ f ∈ userFields op, OwnField f) (hsize : sink'.bytes.length < 2 ^ 64) :
    ∃ ls offs dir stop js, Program C ops (runArchive C zw ops evs).1 ls ∧ ls.length = offs.length ∧
      DirectoryOf sink'.bytes (runArchive C zw ops evs).2.2.isZip64 (archiveComment ops) dir stop js ∧
      List.Forall₂ (fun (q : Listing × Nat) j => Describes32 sink'.bytes j q.1 ∧
        (¬ Clash q.2 q.1 → (zw.forceNoZip64 = true → q.1.streamed = true → q.1.us = q.1.cs) →
          Declares sink'.bytes j q.1.us.toNat q.1.cs.toNat q.2)) (ls.zip offs) js ∧
      (0xFFFFFFFF < dir → (runArchive C zw ops evs).2.2.isZip64 = true) ∧
      (zw.forceNoZip64 = false → 0xFFFF < ls.length → (runArchive C zw ops evs).2.2.isZip64 = true) ∧
      (zw.forceNoZip64 = false → (∃ l ∈ ls, NeedsZip64 l) → (runArchive C zw ops evs).2.2.isZip64 = true) := by
  obtain ⟨out, ps, offs, cd, z, fin⟩ := finished h hs hc (J := True) (Or.inl trivial)
  obtain ⟨js, h1, h2, _⟩ := fin.onBytes (fun op ho f hf => (hown op ho f hf).1) hsize
  rw [← fin.zip]
  refine ⟨ps.map Prod.fst, offs, out.length, out.length + cd.length, js, fin.program, ?_, h1, ?_, fin.far, ?_, ?_⟩
  · rw [List.length_map]; exact fin.placed.length_eq
  · refine (forall₂_mem h2).imp fun q j hq => ⟨hq.2.2.1, fun hcl hsw => ?_⟩
    obtain ⟨p, hp, hpq⟩ := List.mem_map.1 (List.of_mem_zip hq.1).1
    have := (hq.2.2.2 (by rw [← hpq]; exact fin.own hown p hp)).1 hcl
    have hrec : q.1.recorded zw.forceNoZip64 = (q.1.us, q.1.cs) := by
      unfold Listing.recorded
      split
      · rename_i hf
        rw [Bool.and_eq_true] at hf
        rw [hsw hf.1 hf.2]
      · rfl
    rwa [hrec] at this
  · intro hf hn
    rw [List.length_map] at hn
    exact fin.count hf hn
  · intro hf ⟨l, hl, hn⟩
    obtain ⟨p, hp, rfl⟩ := List.mem_map.1 hl
    exact fin.needs hf ⟨p, hp, hn⟩

/-! ## Closing succeeds -/

/-- The only error of closing that is not the sink's (or a panic) is the one for a directory beyond 4 GiB. -/
theorem closeArchive_error {zw : ZipWriter} {evs : List Ev} {x : Fail} (h : (closeArchive ⟨zw, evs⟩).1 = .error x)
    (ho : ¬ (0xFFFFFFFF < zw.writer.offset ∧ zw.forceNoZip64 = true)) : WInterrupted (.error x : Res Unit) ∨ x = .panic := by
  have hw : ∀ b, Errs (fun e => WInterrupted (.error e : Res Unit) ∨ e = .panic) (Wr.writeAll b) :=
    fun b => Errs.writeAll (fun e h => Or.inl h) b
  unfold closeArchive at h
  rw [Wr.bind_get] at h
  cases hc : writeCdEntries zw.cdEntries ⟨zw, evs⟩ with
  | mk q s1 =>
    cases q with
    | error y =>
      simp only at h
      rw [Wr.bind_err hc] at h
      cases h
      exact errs_cdEntries _ _ x (by rw [hc])
    | ok u =>
      obtain ⟨cd, _, hs⟩ := writeCdEntries_ok hc
      simp only at h hs
      rw [Wr.bind_ok hc, Wr.bind_get] at h
      have hk : ∃ s2, closeCheckOffset zw.writer.offset s1 = (.ok (), s2) := by
        unfold closeCheckOffset
        split
        · rename_i hbig
          rw [Wr.bind_get, if_neg (by rw [hs]; exact fun hf => ho ⟨hbig, hf⟩)]
          exact ⟨_, rfl⟩
        · exact ⟨_, rfl⟩
      obtain ⟨s2, hk⟩ := hk
      rw [Wr.bind_ok hk] at h
      refine Errs.bind (P := fun e => WInterrupted (.error e : Res Unit) ∨ e = .panic) Errs.get (fun _ => Errs.bind (Errs.ite (Errs.bind Errs.get fun _ =>
        Errs.bind (hw _) fun _ => Errs.bind (hw _) fun _ => Errs.bind (hw _) fun _ => hw _) Errs.pure) fun _ =>
        Errs.bind (hw _) fun _ => Errs.bind (hw _) fun _ => Errs.bind (hw _) fun _ => Errs.bind Errs.get fun _ => Errs.pure)
        s2 x h

/-- Closing an archive succeeds if the sink takes everything, unless ZIP64 is forbidden and needed for the directory. -/
theorem close_succeeds (C : Codec) (sink : Sink) (zw : ZipWriter) (h : Created sink zw) (ops : List Op)
    (ho : ¬ (0xFFFFFFFF < (runOps C zw ops).2.writer.offset ∧ zw.forceNoZip64 = true)) (c : Nat) :
    ∃ n sink', (runArchive C zw ops (List.replicate n (.accept (c + 1)))).2.1 = .ok sink' := by
  obtain ⟨n, r, zw', hown, hrun⟩ := WCompletes.closeArchive (c := c) (runOps C zw ops).2
  have hrun := congrArg Prod.fst (hrun 0)
  have hnp := C47_close C sink zw h ops (List.replicate (n + 0) (.accept (c + 1)))
  refine ⟨n + 0, ?_⟩
  have hshow : (runArchive C zw ops (List.replicate (n + 0) (.accept (c + 1)))).2.1 = r := hrun
  rw [hshow] at hnp ⊢
  cases r with
  | ok s => exact ⟨s, rfl⟩
  | error x =>
    rcases closeArchive_error hrun (by rw [runOps_force]; exact ho) with hw | hw
    · exact absurd hw.cast hown.not
    · exact absurd (by rw [hw]) hnp

/-! ## Where the end records are wrong -/

theorem Directory.comments {cs : List CdEntry} {cd : Bytes} (h : Directory cs cd) {k : Nat}
    (hk : ∀ c ∈ cs, c.entry.comment.basic.length = k) : (46 + k) * cs.length ≤ cd.length := by
  induction h with
  | nil => simp
  | cons _ _ ih =>
    have := ih fun c hc => hk c (List.mem_cons_of_mem _ hc)
    rw [List.length_append, recordBytes_length, hk _ List.mem_cons_self, List.length_cons, Nat.mul_succ]
    omega

theorem Directory.bound {cs : List CdEntry} {cd : Bytes} (h : Directory cs cd)
    (hk : ∀ c ∈ cs, c.entry.filename.basic.length < 2 ^ 16 ∧ extraCountBytes c.entry.extraFields < 2 ^ 16 ∧
      c.entry.comment.basic.length < 2 ^ 16) : cd.length ≤ 200000 * cs.length := by
  induction h with
  | nil => simp
  | cons hx _ ih =>
    have := ih fun c hc => hk c (List.mem_cons_of_mem _ hc)
    obtain ⟨h1, h2, h3⟩ := hk _ List.mem_cons_self
    have h4 := extraAsBytes_length hx
    rw [List.length_append, recordBytes_length, List.length_cons, Nat.mul_succ]
    omega

theorem Finished.bound {C : Codec} {zw : ZipWriter} {ops : List Op} {evs : List Ev}
    {bytes out cd : Bytes} {J : Prop} {ps : List (Listing × CdEntry)} {offs : List Nat} {z : Bool}
    (fin : Finished C zw ops evs bytes J out ps offs cd z) :
    bytes.length ≤ out.length + 200000 * ps.length + 98 + (archiveComment ops).length := by
  have hb := fin.directory.bound fun c hc => by
    obtain ⟨p, hp, rfl⟩ := List.mem_map.1 hc
    obtain ⟨a, x, rest, _, g⟩ := fin.body.mem p hp
    refine ⟨?_, g.fits, ?_⟩
    · rw [g.describes.filename, ← g.describes.nameLen]; exact UInt16.toNat_lt _
    · rw [g.describes.comment, ← g.describes.commentLen]; exact UInt16.toNat_lt _
  rw [List.length_map] at hb
  rw [fin.bytes, commentBytes_eq, archive_length]
  unfold endAt
  split <;> omega

theorem blanks_noZip64 {ops : List Op} {k : Nat} (h : ∀ op ∈ ops, ∃ evs, op = .whole (blank k) [] false evs) :
    (∀ op ∈ ops, NoZip64 (userFields op)) ∧ archiveComment ops = [] := by
  constructor
  · intro op hop
    obtain ⟨evs, rfl⟩ := h op hop
    exact fun f hf => by cases hf
  · unfold archiveComment
    have : finalComment none ops = none := by
      induction ops with
      | nil => rfl
      | cons op ops ih =>
        obtain ⟨evs, rfl⟩ := h op List.mem_cons_self
        exact ih fun op hop => h op (List.mem_cons_of_mem _ hop)
    rw [this]

/-- C40 as written does not hold for the directory size: 65535 empty files with comments of 65535 bytes make a directory of
more than 4 GiB, which closes without error and without ZIP64 records, with a size field that is not its size. -/
theorem C40_size_fails (C : Codec) : ∃ ops evs sink' dir stop js, (runArchive C small ops evs).2.1 = .ok sink' ∧
    DirectoryOf sink'.bytes false [] dir stop js ∧ js.length = 65535 ∧
    fieldAt sink'.bytes (endPosition sink'.bytes [] + 12) 4 ≠ stop - dir := by
  obtain ⟨ops, g1, g2, g3, cs, g4, g5, g6⟩ := blanks_written C 65535 (Nat.le_refl _) 0xFFFF small (by decide) (by decide)
  have hoff : (runOps C small ops).2.writer.offset = 30 * 65535 := g3.trans (Nat.zero_add _)
  obtain ⟨n, sink', hc⟩ := close_succeeds C ⟨[], 0, 0⟩ small (.noZip64 .new) ops (by rw [hoff]; omega) 0
  obtain ⟨hno, hcom⟩ := blanks_noZip64 g1
  obtain ⟨out, ps, offs, cd, z, fin⟩ := finished (zw := small) (.noZip64 .new) rfl hc (J := True) (Or.inl trivial)
  have hlen : ps.length = 65535 := by
    have := congrArg List.length fin.entries
    rw [g4, List.length_map, List.length_append, g5] at this
    exact this.symm.trans (Nat.zero_add _)
  have hout : out.length = 30 * 65535 := by
    rw [← fin.offset, hoff]
  have hb := fin.bound
  rw [hcom, hlen, hout] at hb
  obtain ⟨js, h1, h2, h3, h4, h5⟩ := fin.onBytes hno (Nat.lt_of_le_of_lt hb (by decide))
  rw [hcom] at h1 h4
  have hz : z = false := by
    rw [fin.flag, runOps_keepsZ C ops small rfl, hout]
    rfl
  rw [hz] at h1
  refine ⟨ops, _, sink', _, _, js, hc, h1, h3.trans hlen, ?_⟩
  rw [(h4 (by decide)).size, Nat.add_sub_cancel_left]
  have := fin.directory.comments (k := 65535) (fun c hc => by
    rw [← fin.entries, g4] at hc
    rcases List.mem_append.1 hc with hc | hc
    · cases hc
    · exact g6 c hc)
  rw [List.length_map, hlen] at this
  omega

theorem runOps_append (C : Codec) (ops ops' : List Op) : ∀ zw : ZipWriter, runOps C zw (ops ++ ops') =
    ((runOps C zw ops).1 ++ (runOps C (runOps C zw ops).2 ops').1, (runOps C (runOps C zw ops).2 ops').2) := by
  induction ops with
  | nil => intro zw; rfl
  | cons op ops ih =>
    intro zw
    show (_ :: (runOps C (runOp C zw op).2 (ops ++ ops')).1, (runOps C (runOp C zw op).2 (ops ++ ops')).2) = _
    rw [ih]
    rfl

theorem runOps_single (C : Codec) (zw : ZipWriter) (op : Op) : runOps C zw [op] = ([(runOp C zw op).1], (runOp C zw op).2) := by
  rfl

/-- 65536 empty files, of which the last is refused. -/
theorem one_too_many (C : Codec) (zw : ZipWriter) (hf : zw.forceNoZip64 = true) (ho : zw.writer.offset = 0)
    (he : zw.cdEntries = []) : ∃ ops, (∀ op ∈ ops, ∃ evs, op = .whole (blank 0) [] false evs) ∧
      (runOps C zw ops).1 = List.replicate 65535 (.whole (.ok ())) ++ [.whole (.error (.err (.zip64Needed .tooManyFiles)))] ∧
      (runOps C zw ops).2.writer.offset = 30 * 65536 ∧ (runOps C zw ops).2.cdEntries.length = 65536 := by
  obtain ⟨ops, g1, g2, g3, cs, g4, g5, _⟩ := blanks_written C 0 (by decide) 65535 zw (by rw [ho]; decide) (by rw [he]; decide)
  obtain ⟨evs, h1, h2, c, h3, _⟩ := blank_written C 0 (by decide) (runOps C zw ops).2 (by rw [g3, ho]; decide)
  have hlen : (runOps C zw ops).2.cdEntries.length = 65535 := by rw [g4, he, List.length_append, g5]; rfl
  refine ⟨ops ++ [.whole (blank 0) [] false evs], ?_, ?_, ?_, ?_⟩
  · intro op hop
    rcases List.mem_append.1 hop with hop | hop
    · exact g1 op hop
    · rw [List.mem_singleton] at hop
      exact ⟨evs, hop⟩
  · rw [runOps_append, g2, runOps_single, h1, if_pos ⟨by rw [hlen]; decide, by rw [runOps_force]; exact hf⟩]
    rfl
  · rw [runOps_append, runOps_single, h2, g3, ho]
  · rw [runOps_append, runOps_single, h3, List.length_append, hlen]
    rfl

/-- C40 as written does not hold for the number of entries: with `force_no_zip64`, after a call was told that its entry is
one too many, the archive still closes, with 65536 records in its directory and an end record that says 65535. -/
theorem C40_count_fails (C : Codec) : ∃ ops evs sink' dir stop js, (runArchive C small ops evs).2.1 = .ok sink' ∧
    DirectoryOf sink'.bytes false [] dir stop js ∧ js.length = 65536 ∧
    fieldAt sink'.bytes (endPosition sink'.bytes [] + 10) 2 = 65535 := by
  obtain ⟨ops, g1, g2, hoff, g4⟩ := one_too_many C small rfl rfl rfl
  obtain ⟨n, sink', hc⟩ := close_succeeds C ⟨[], 0, 0⟩ small (.noZip64 .new) ops (by rw [hoff]; omega) 0
  obtain ⟨hno, hcom⟩ := blanks_noZip64 g1
  obtain ⟨out, ps, offs, cd, z, fin⟩ := finished (zw := small) (.noZip64 .new) rfl hc (J := True) (Or.inl trivial)
  have hlen : ps.length = 65536 := by
    have := congrArg List.length fin.entries
    rw [g4, List.length_map] at this
    exact this.symm
  have hout : out.length = 30 * 65536 := by
    rw [← fin.offset, hoff]
  have hb := fin.bound
  rw [hcom, hlen, hout] at hb
  obtain ⟨js, h1, h2, h3, h4, h5⟩ := fin.onBytes hno (Nat.lt_of_le_of_lt hb (by decide))
  rw [hcom] at h1 h4
  have hz : z = false := by
    rw [fin.flag, runOps_keepsZ C ops small rfl, hout]
    rfl
  rw [hz] at h1
  refine ⟨ops, _, sink', _, _, js, hc, h1, h3.trans hlen, ?_⟩
  rw [(h4 (by decide)).entries.2, hlen]
  rfl

/-- A new archive for which ZIP64 is both forbidden and demanded. -/
def both : ZipWriter := small.withForceZip64

/-- C43 as written does not hold: an entry reported as one too many is listed all the same (here in an archive for which
ZIP64 was both forbidden and demanded, so that the count is right). -/
theorem C43_refused_fails (C : Codec) : ∃ ops evs sink' dir stop js, (runArchive C both ops evs).2.1 = .ok sink' ∧
    (runArchive C both ops evs).1 = List.replicate 65535 (.whole (.ok ())) ++ [.whole (.error (.err (.zip64Needed .tooManyFiles)))] ∧
    DirectoryOf sink'.bytes true [] dir stop js ∧ js.length = 65536 ∧ Zip64EndAt sink'.bytes stop 65536 (stop - dir) dir := by
  obtain ⟨ops, g1, g2, hoff, g4⟩ := one_too_many C both rfl rfl rfl
  have hcr : Created ⟨[], 0, 0⟩ both := .zip64 (.noZip64 .new)
  obtain ⟨n, sink', hc⟩ := close_succeeds C ⟨[], 0, 0⟩ both hcr ops (by rw [hoff]; omega) 0
  obtain ⟨hno, hcom⟩ := blanks_noZip64 g1
  obtain ⟨out, ps, offs, cd, z, fin⟩ := finished (zw := both) hcr rfl hc (J := True) (Or.inl trivial)
  have hlen : ps.length = 65536 := by
    have := congrArg List.length fin.entries
    rw [g4, List.length_map] at this
    exact this.symm
  have hout : out.length = 30 * 65536 := by
    rw [← fin.offset, hoff]
  have hb := fin.bound
  rw [hcom, hlen, hout] at hb
  obtain ⟨js, h1, h2, h3, h4, h5⟩ := fin.onBytes hno (Nat.lt_of_le_of_lt hb (by decide))
  rw [hcom] at h1
  have hz : z = true := by
    rw [fin.flag, runOps_keepsZ C ops both rfl]
    rfl
  rw [hz] at h1
  refine ⟨ops, _, sink', _, _, js, hc, g2, h1, h3.trans hlen, ?_⟩
  have := h5 hz
  rw [hlen] at this
  rw [Nat.add_sub_cancel_left]
  exact this

theorem blocks_one {b : List UInt8} {x : Nat × List UInt8} (h : 4 + fieldAt b 2 2 ≤ b.length)
    (hr : b.drop (4 + fieldAt b 2 2) = []) (hx : (fieldAt b 0 2, (b.drop 4).take (fieldAt b 2 2)) = x) : Blocks b [x] [] :=
  hx ▸ .cons b [] [] h (hr ▸ .nil _)

/-! ## The sample program -/

/-- C40 on the sample program. -/
example : EndAt Samples.programBytes 369 2 124 169 [99] ∧ Zip64EndAt Samples.programBytes 293 2 124 169 := by
  obtain ⟨ls, dir, stop, js, h1, h2, h3, h4, h5, h6⟩ := C40_end_records_partial Samples.markCodec ⟨[], 0, 0⟩
    ⟨Samples.programBytes, 1, 0⟩ Samples.fresh .new rfl Samples.program Samples.eager Samples.program_archive.2.1
    (fun op ho f hf => (Samples.program_legible.own op ho f hf).1) (by decide +kernel) (by decide +kernel)
  have h6 := h6 Samples.program_archive.2.2
  rw [Samples.program_archive.2.2] at h4
  have hstop : stop = 293 := by
    have := h4.last
    rw [show Samples.programBytes.length = 392 by decide +kernel, show archiveComment Samples.program = [99] by decide +kernel] at this
    simp only [if_true, List.length_cons, List.length_nil] at this
    omega
  subst hstop
  have hdir : dir = 169 := by rw [← h6.offset]; decide +kernel
  have hn : ls.length = 2 := by rw [← h6.entries.1]; decide +kernel
  rw [show endPosition Samples.programBytes (archiveComment Samples.program) = 369 by decide +kernel,
    show archiveComment Samples.program = [99] by decide +kernel, hn, hdir] at h5
  rw [hn, hdir] at h6
  exact ⟨h5, h6⟩

/-- The hypotheses of C36 and C39 hold for the sample program. -/
example := C36_offsets_partial Samples.markCodec ⟨[], 0, 0⟩ ⟨Samples.programBytes, 1, 0⟩ Samples.fresh .new rfl Samples.program
  Samples.eager Samples.program_archive.2.1 Samples.program_legible.own (by decide +kernel)

example := C39_values_partial Samples.markCodec ⟨[], 0, 0⟩ ⟨Samples.programBytes, 1, 0⟩ Samples.fresh .new rfl Samples.program
  Samples.eager Samples.program_archive.2.1 Samples.program_legible.own (by decide +kernel)

/-- What they say of the streamed entry: the second record gives its offset and sizes, which are all in its ZIP64 field. -/
example : Declares Samples.programBytes 218 3 8 90 ∧ OccursAt Samples.programBytes sigLocal 90 := by
  refine ⟨⟨[(1, [3, 0, 0, 0, 0, 0, 0, 0, 8, 0, 0, 0, 0, 0, 0, 0, 90, 0, 0, 0, 0, 0, 0, 0])], ?_, ?_, ?_, ?_⟩, ?_⟩
  · exact blocks_one (by decide +kernel) (by decide +kernel) (by decide +kernel)
  all_goals decide +kernel

end AsyncZip
