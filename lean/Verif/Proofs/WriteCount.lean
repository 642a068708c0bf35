import Verif.Proofs.WriteErrors
/-!
# Counting entries: when "too many files" is reported, and what a program of many small entries does
-/

namespace AsyncZip
open Spec Wr

/-- A call that lists an entry reports too many files exactly if there are more than 65535 and ZIP64 is forbidden. -/
def Counts (m : Wr Unit) : Prop := ∀ s, Listed (m s).1 →
  (m s).1 = if 0xFFFF < s.zw.cdEntries.length + 1 ∧ s.zw.forceNoZip64 = true then .error tooMany else .ok ()

/-- What the steps before listing must satisfy. -/
structure Before {α : Type} (m : Wr α) : Prop where
  tm : NoTM m
  cd : KeepsCd m
  grows : Grows m

theorem Before.lift {α : Type} {r : Res α} (h : NoTMR r) : Before (Wr.lift r) := ⟨NoTM.lift h, KeepsCd.lift, Grows.lift r⟩
theorem Before.get : Before Wr.get := ⟨NoTM.get, KeepsCd.get, Grows.get⟩
theorem Before.writeAll (b : Bytes) : Before (Wr.writeAll b) := ⟨NoTM.writeAll b, KeepsCd.writeAll b, Grows.writeAll b⟩

theorem Counts.bind {α : Type} {m : Wr α} {f : α → Wr Unit} (hm : Before m) (hf : ∀ a, Counts (f a)) :
    Counts (m >>= f) := by
  intro s hl
  cases hr : (m >>= f) s with
  | mk r s' =>
    rw [hr] at hl
    obtain ⟨a, s1, h1, h2⟩ := bind_listed hm.tm hr hl
    have hc := hm.cd s
    have hg := (hm.grows s).force
    rw [h1] at hc hg
    have := hf a s1 (by rw [h2]; exact hl)
    rw [h2] at this
    rw [hc, hg] at this
    exact this

theorem Counts.pushEntry (c : CdEntry) : Counts (pushEntry c) := by
  intro s _
  rw [pushEntry_eq]

theorem Counts.writeWhole (C : Codec) (e : ZipEntry) (d : Bytes) (p : Bool) : Counts (writeWhole C e d p) :=
  bind ⟨NoTM.wholePrepare C e d p, KeepsCd.wholePrepare C e d p, Grows.wholePrepare C e d p⟩ fun _ =>
    bind (Before.writeAll _) fun _ => bind (Before.writeAll _) fun _ => bind (Before.writeAll _) fun _ =>
    bind (Before.lift (noTMR_extra _)) fun _ => bind (Before.writeAll _) fun _ => bind (Before.writeAll _) fun _ =>
    bind (Before.lift (noTMR_late _)) fun _ => Counts.pushEntry _

theorem noTMR_streamCdh (e : ZipEntry) (h : LocalFileHeader) (a b c : UInt32) : NoTMR (streamCdh e h a b c) :=
  noTMR_bind (noTMR_tryU16 _ _ (by decide)) fun _ => noTMR_pure

theorem Counts.closeStream {C : Codec} (st : EntryStream C) : Counts (closeStream st) :=
  bind ⟨NoTM.encClose _, KeepsCd.encClose _, Grows.encClose _⟩ fun _ => bind Before.get fun _ =>
    bind (Before.lift (noTMR_streamSizes _ _ _ _ _)) fun _ => bind (Before.writeAll _) fun _ =>
    bind (Before.writeAll _) fun _ => bind (Before.writeAll _) fun _ => bind (Before.writeAll _) fun _ =>
    bind (Before.lift (noTMR_streamCdh _ _ _ _ _)) fun _ => Counts.pushEntry _

/-! ## Streams that would need ZIP64 -/

theorem closeStream_sizes_error {C : Codec} {st : EntryStream C} {zw : ZipWriter} {evs : List Ev} {r : Res Unit} {t : WSt}
    {x : Fail} (h : closeStream st ⟨zw, evs⟩ = (r, t)) (hr : ¬ WInterrupted r)
    (hs : streamSizes zw.forceNoZip64 st.finalEntry st.lfh (zw.writer.offset + (encTail st.enc).length - st.dataOffset)
      st.lfhOffset = .error x) : r = .error x := by
  have ho : Outcome (closeStream st) zw (.error x) (zw.put (encTail st.enc)) := by
    unfold closeStream
    have h1 : Outcome (encClose st.enc) zw (.ok ()) (zw.put (encTail st.enc)) := by
      cases st.enc with
      | none => rw [show encTail (none : Option (EncState C)) = [] from rfl, put_nil]; exact Outcome.pure
      | some s => exact Outcome.writeAll
    refine h1.bind (Outcome.get.bind ?_)
    refine Outcome.bind_error (e := x) ?_
    rw [← hs]
    exact Outcome.lift
  exact (ho.use h hr).1

/-- With ZIP64 forbidden, closing a stream that starts beyond 4 GiB or took in more than 4 GiB reports it. -/
theorem stream_force_reports {C : Codec} {zw : ZipWriter} {e : ZipEntry} {pre : Bool} {evs evs' : List Ev}
    {acts : List StreamAct} {rs : List (Res Nat)} {r : Res Unit} {zw1 : ZipWriter}
    (h : runOp C zw (.stream e pre evs acts (.close evs')) = (.stream (.ok ()) rs (some r), zw1))
    (hf : zw.forceNoZip64 = true) (hr : ¬ WInterrupted r)
    (hbig : zw.writer.offset > 0xFFFFFFFF ∨ ((accepted acts rs).length > 0xFFFFFFFF ∧ (accepted acts rs).length < 2 ^ 64)) :
    r = .error (.err (.zip64Needed .largeFile)) := by
  cases ho : openStream C e pre ⟨zw, evs⟩ with
  | mk q s =>
    cases q with
    | error x => rw [runOp_open_error ho] at h; cases h
    | ok st =>
      obtain ⟨rs', zw', st', em, f, h1, hlen, h2, h3⟩ := runActs_spec acts s.zw st
      cases hc : closeStream st' ⟨zw', evs'⟩ with
      | mk r' t =>
        rw [runOp_close ho h1 hc] at h
        simp only [Prod.mk.injEq, OpResult.stream.injEq, Option.some.injEq, true_and] at h
        obtain ⟨⟨rfl, rfl⟩, rfl⟩ := h
        obtain ⟨hd, extra, enc, o1, o2, o3, o4, o5, _⟩ := openStream_ok ho
        simp only at o4 o5
        obtain ⟨enc', a6, a7⟩ := h2.stream
        have hzf : zw'.forceNoZip64 = true := by rw [h2.writer, o4]; exact hf
        refine closeStream_sizes_error hc hr ?_
        rw [hzf]
        unfold streamSizes
        rw [if_pos rfl, if_pos]
        rcases hbig with hb | ⟨hb, hb'⟩
        · refine Or.inr (Or.inr ?_)
          rw [a6, o5]
          exact hb
        · cases pre with
          | false =>
            left
            unfold EntryStream.finalEntry
            rw [a6, o5]
            simp only [Bool.false_eq_true, if_false, Nat.zero_add]
            rw [UInt64.toNat_ofNat', Nat.mod_eq_of_lt hb']
            exact hb
          | true =>
            right; left
            have he : st.enc = none := by
              rw [o5]
              simp only
              unfold encFromRaw at o3
              rw [if_pos rfl, Except.ok.injEq] at o3
              exact o3.symm
            rw [he] at a7
            simp only at a7
            obtain ⟨_, rfl⟩ := a7
            rw [h2.writer, show st'.dataOffset = s.zw.writer.offset by rw [a6, o5]]
            show _ < (s.zw.writer.offset + (accepted acts rs').length) + _ - _
            omega

/-- With ZIP64 forbidden, opening a stream for an entry that declares more than 4 GiB fails at once. -/
theorem openStream_force_reports {C : Codec} {e : ZipEntry} {pre : Bool} {s : WSt} (hf : s.zw.forceNoZip64 = true)
    (hbig : Big e) : openStream C e pre s = (.error (.err (.zip64Needed .largeFile)), s) := by
  unfold openStream
  rw [Wr.bind_ok (show Wr.get s = (.ok s.zw, s) from rfl)]
  apply Wr.bind_err
  unfold streamWriteLfh
  apply Wr.bind_err
  unfold streamZip64
  rw [Wr.bind_ok (show Wr.get s = (.ok s.zw, s) from rfl), if_neg (by simp [hf]), if_pos (hbig.symm)]
  rfl

/-- Measuring an entry succeeds unless it asks for Deflate64. -/
theorem measure_total {C : Codec} {e : ZipEntry} {data : Bytes} {pre : Bool}
    (h : ¬ (e.compression = .deflate64 ∧ pre = false)) : ∃ em d, wholeMeasure C e data pre = .ok (em, d) := by
  cases hm : wholeMeasure C e data pre with
  | ok r => exact ⟨r.1, r.2, rfl⟩
  | error x =>
    exfalso
    cases pre with
    | true => cases hm
    | false =>
      unfold wholeMeasure at hm
      simp only [Bool.false_eq_true, if_false] at hm
      unfold wholeCompress compress at hm
      simp only at hm
      cases hc : e.compression <;> rw [hc] at hm h <;> first | exact h ⟨rfl, rfl⟩ | cases hm

theorem extraCount_append (a b : List ExtraField) : extraCountBytes (a ++ b) = extraCountBytes a + extraCountBytes b := by
  induction a with
  | nil => exact (Nat.zero_add _).symm
  | cons f fs ih =>
    rw [List.cons_append, extraCountBytes, ih, extraCountBytes, Nat.add_assoc]

theorem placed_count (em : ZipEntry) (off : Nat) :
    extraCountBytes em.extraFields ≤ extraCountBytes (placed em off).extraFields := by
  unfold placed
  split
  · simp only
    rw [extraCount_append]
    exact Nat.le_add_right _ _
  · exact Nat.le_refl _

/-! ## Many small entries -/

/-- An entry without a name, with a comment of `k` letters. -/
def blank (k : Nat) : ZipEntry := { ZipEntry.new ⟨.utf8, [], none⟩ .stored with comment := ⟨.utf8, List.replicate k 97, none⟩ }

/-- A representable entry within the first 4 GiB is written, if the sink takes everything it is given. -/
theorem whole_succeeds {C : Codec} {e em : ZipEntry} {data d : Bytes} {pre : Bool} {zw : ZipWriter}
    (hd : ¬ (e.compression = .deflate64 ∧ pre = false)) (hm : wholeMeasure C e data pre = .ok (em, d))
    (hv : wholeVerdict zw.forceNoZip64 zw.writer.offset em = none) (ho : zw.writer.offset ≤ 0xFFFFFFFF) (c : Nat) :
    ∃ n, (writeWhole C e data pre ⟨zw, List.replicate n (.accept (c + 1))⟩).1 =
      if 0xFFFF < zw.cdEntries.length + 1 ∧ zw.forceNoZip64 = true then .error tooMany else .ok () := by
  obtain ⟨n, r, zw', hown, hrun⟩ := WCompletes.writeWhole (c := c) C e data pre zw
  have hrun := hrun 0
  refine ⟨n + 0, ?_⟩
  have hl : Listed (writeWhole C e data pre ⟨zw, List.replicate (n + 0) (.accept (c + 1))⟩).1 := by
    rw [hrun]
    cases r with
    | ok u => exact Or.inl rfl
    | error x =>
      rcases writeWhole_error hrun with h | ⟨p, em, hp, h | rfl | ⟨h, _⟩ | rfl⟩
      · rcases wholePrepare_error h with h | ⟨em, d, v, h1, _, h2⟩
        · rw [hm] at h; cases h
        · rw [hm] at h1
          simp only [Except.ok.injEq, Prod.mk.injEq] at h1
          obtain ⟨rfl, _⟩ := h1
          rw [hv] at h2; cases h2
      · exact absurd h (Own.not hown)
      · exact absurd (congrArg Prod.fst hrun) (NoP.writeWhole hd _)
      · exact absurd ho h
      · exact Or.inr rfl
  exact Counts.writeWhole C e data pre ⟨zw, _⟩ hl

theorem blank_verdict (k : Nat) (hk : k ≤ 65535) (force : Bool) (off : Nat) (ho : off ≤ 0xFFFFFFFF) :
    wholeVerdict force off { blank k with uncompressedSize := 0, crc32 := crc32 [], compressedSize := 0 } = none := by
  have hb : ¬ Big { blank k with uncompressedSize := 0, crc32 := crc32 [], compressedSize := 0 } := by
    unfold Big; simp only []; decide
  unfold wholeVerdict
  rw [if_neg (fun h => h.2.elim hb (fun h => h ho)), if_neg, if_neg, if_neg]
  · show ¬ ¬ (List.replicate k (97 : UInt8)).length < _
    rw [List.length_replicate]; omega
  · show ¬ ¬ ([] : Bytes).length < _
    decide
  · rw [placed, if_neg hb]
    have : bothUtf8 { blank k with uncompressedSize := 0, crc32 := crc32 [], compressedSize := 0 } = true := rfl
    rw [withUnicode, if_pos this]
    show ¬ ¬ extraCountBytes [] < _
    decide

theorem blank_measure (C : Codec) (k : Nat) : wholeMeasure C (blank k) [] false =
    .ok ({ blank k with uncompressedSize := 0, crc32 := crc32 [], compressedSize := 0 }, []) := rfl

/-- What writing one more blank entry does to a writer that has `n` of them, if the sink takes everything. -/
theorem blank_written (C : Codec) (k : Nat) (hk : k ≤ 65535) (zw : ZipWriter) (ho : zw.writer.offset ≤ 0xFFFFFFFF) :
    ∃ evs, (runOp C zw (.whole (blank k) [] false evs)).1 = .whole
        (if 0xFFFF < zw.cdEntries.length + 1 ∧ zw.forceNoZip64 = true then .error tooMany else .ok ()) ∧
      (runOp C zw (.whole (blank k) [] false evs)).2.writer.offset = zw.writer.offset + 30 ∧
      ∃ c, (runOp C zw (.whole (blank k) [] false evs)).2.cdEntries = zw.cdEntries ++ [c] ∧ c.entry.comment.basic.length = k := by
  obtain ⟨n, h⟩ := whole_succeeds (C := C) (e := blank k) (data := []) (pre := false) (zw := zw) (fun h => by cases h.1)
    (blank_measure C k) (blank_verdict k hk _ _ ho) ho 0
  have hr : (runOp C zw (.whole (blank k) [] false (List.replicate n (.accept (0 + 1))))).1 = .whole
      (if 0xFFFF < zw.cdEntries.length + 1 ∧ zw.forceNoZip64 = true then .error tooMany else .ok ()) := by
    rw [← h]; rfl
  refine ⟨_, hr, ?_⟩
  have hlst : ¬ NotListed (runOp C zw (.whole (blank k) [] false (List.replicate n (.accept (0 + 1))))).1 := by
    rw [hr]
    intro hn
    apply hn
    split
    · exact Or.inr rfl
    · exact Or.inl rfl
  rcases runOp_step C zw (.whole (blank k) [] false (List.replicate n (.accept (0 + 1)))) with
    ⟨l, c, x, hask, hgood, _, hoff, hent, _, _, _⟩ | ⟨hn, _, _⟩
  · rw [hr] at hask
    obtain ⟨hd, fs, extra, hloc, hex, hx⟩ := hgood.bytes
    have hl : l.entry = blank k ∧ l.streamed = false ∧ l.stored = [] := by
      cases hask with
      | whole e d evs r stored h hs =>
        refine ⟨rfl, rfl, ?_⟩
        rcases hs with ⟨_, rfl⟩ | ⟨h, _⟩
        · rfl
        · exact absurd rfl h
    refine ⟨?_, c, hent, ?_⟩
    · rw [hoff, hx, hl.1, hl.2.2]
      rcases (hloc.whole hl.2.1).2 with ⟨_, _, _, _, hfs⟩ | ⟨o, hbig, _⟩
      · rw [hl.1] at hfs
        have hu : withUnicode (blank k) (blank k).extraFields = [] := by
          rw [withUnicode, if_pos (show bothUtf8 (blank k) = true from rfl)]; rfl
        rw [hu] at hfs
        subst hfs
        rw [show extraAsBytes [] = .ok [] from rfl, Except.ok.injEq] at hex
        subst hex
        have ht : tailBytes zw.forceNoZip64 l = [] := by rw [tailBytes, hl.2.1]; rfl
        rw [ht]
        rfl
      · exfalso
        have h1 := hgood.describes
        cases hask with
        | whole e d evs r stored h hs =>
          rw [show stored = [] from hl.2.2] at hbig
          revert hbig
          simp only [Listing.cs]
          decide
    · rw [hgood.describes.comment, hl.1]
      show (List.replicate k (97 : UInt8)).length = k
      rw [List.length_replicate]
  · exact absurd hn hlst

/-- Writing `n` blank entries, with a sink that takes everything. -/
theorem blanks_written (C : Codec) (k : Nat) (hk : k ≤ 65535) (n : Nat) : ∀ (zw : ZipWriter),
    zw.writer.offset + 30 * n ≤ 0xFFFFFFFF → zw.cdEntries.length + n ≤ 0xFFFF →
    ∃ ops : List Op, (∀ op ∈ ops, ∃ evs, op = .whole (blank k) [] false evs) ∧
      (runOps C zw ops).1 = List.replicate n (.whole (.ok ())) ∧
      (runOps C zw ops).2.writer.offset = zw.writer.offset + 30 * n ∧
      ∃ cs, (runOps C zw ops).2.cdEntries = zw.cdEntries ++ cs ∧ cs.length = n ∧ ∀ c ∈ cs, c.entry.comment.basic.length = k := by
  induction n with
  | zero => intro zw _ _; exact ⟨[], (fun _ h => by cases h), rfl, rfl, [], (List.append_nil _).symm, rfl, fun _ h => by cases h⟩
  | succ n ih =>
    intro zw ho hc
    obtain ⟨evs, h1, h2, c, h3, h4⟩ := blank_written C k hk zw (by omega)
    rw [if_neg (by omega)] at h1
    obtain ⟨ops, g1, g2, g3, cs, g4, g5, g6⟩ := ih (runOp C zw (.whole (blank k) [] false evs)).2 (by omega) (by
      rw [h3, List.length_append, List.length_singleton]; omega)
    have hrun : runOps C zw (.whole (blank k) [] false evs :: ops) =
        ((runOp C zw (.whole (blank k) [] false evs)).1 :: (runOps C (runOp C zw (.whole (blank k) [] false evs)).2 ops).1,
          (runOps C (runOp C zw (.whole (blank k) [] false evs)).2 ops).2) := rfl
    refine ⟨.whole (blank k) [] false evs :: ops, ?_, ?_, ?_, c :: cs, ?_, ?_, ?_⟩
    · intro op hop
      rcases List.mem_cons.1 hop with rfl | hop
      · exact ⟨_, rfl⟩
      · exact g1 op hop
    · rw [hrun]; simp only; rw [h1, g2]; rfl
    · rw [hrun]; simp only; rw [g3, h2]; omega
    · rw [hrun]; simp only; rw [g4, h3, List.append_assoc]; rfl
    · rw [List.length_cons, g5]
    · intro c' hc'
      rcases List.mem_cons.1 hc' with rfl | hc'
      · exact h4
      · exact g6 c' hc'

/-! ## The extra field found too large after the entry was written -/

theorem writeAll_error {b : Bytes} {s s' : WSt} {x : Fail} (h : writeAll b s = (.error x, s')) :
    WInterrupted (.error x : Res Unit) := by
  obtain ⟨_, _, _, _, _, h'⟩ := writeAll_spec b s
  rw [h] at h'
  rcases h' with ⟨h', _⟩ | h'
  · cases h'
  · exact h'

/-- If the ZIP64 field for the offset does not fit, that is noticed only after header and data have been written. -/
theorem writeWhole_late {C : Codec} {e : ZipEntry} {data : Bytes} {pre : Bool} {s s1 : WSt} {p : Prepared} {x : Fail}
    (h1 : wholePrepare C e data pre s = (.ok p, s1)) (hx : wholeLateBuilder p = .error x)
    (hr : ¬ WInterrupted (writeWhole C e data pre s).1) (hp : (writeWhole C e data pre s).1 ≠ .error .panic) :
    ∃ extra, (writeWhole C e data pre s).1 = .error x ∧
      (writeWhole C e data pre s).2.zw = s1.zw.put (localBytes p.lfh p.entry.filename.basic extra p.data) := by
  cases hw : writeWhole C e data pre s with
  | mk r s' =>
    rw [hw] at hr hp
    unfold writeWhole at hw
    rw [Wr.bind_ok h1] at hw
    have key : ∀ {b : Bytes} {f : Unit → Wr Unit} {t : WSt}, (Wr.writeAll b >>= f) t = (r, s') →
        ∃ t', t'.zw = t.zw.put b ∧ f () t' = (r, s') := by
      intro b f t h
      cases hb : Wr.writeAll b t with
      | mk q t' =>
        cases q with
        | ok u => rw [Wr.bind_ok hb] at h; exact ⟨t', writeAll_ok hb, h⟩
        | error y =>
          rw [Wr.bind_err hb, Prod.mk.injEq] at h
          refine absurd (writeAll_error hb) ?_
          rw [h.1]; exact hr
    obtain ⟨s2, h2, hw⟩ := key hw
    obtain ⟨s3, h3, hw⟩ := key hw
    obtain ⟨s4, h4, hw⟩ := key hw
    cases he : extraAsBytes p.entry.extraFields with
    | error y =>
      rw [Wr.bind_err (show Wr.lift (extraAsBytes p.entry.extraFields) s4 = (.error y, s4) by rw [he]; rfl), Prod.mk.injEq] at hw
      have := errsR_extra _ _ he
      subst this
      exact absurd hw.1.symm hp
    | ok extra =>
      rw [Wr.bind_ok (show Wr.lift (extraAsBytes p.entry.extraFields) s4 = (.ok extra, s4) by rw [he]; rfl)] at hw
      obtain ⟨s5, h5, hw⟩ := key hw
      obtain ⟨s6, h6, hw⟩ := key hw
      rw [Wr.bind_err (show Wr.lift (wholeLateBuilder p) s6 = (.error x, s6) by rw [hx]; rfl), Prod.mk.injEq] at hw
      refine ⟨extra, hw.1.symm, ?_⟩
      rw [← hw.2, h6, h5, h4, h3, h2]
      simp only [put_put, localBytes, List.append_assoc]

end AsyncZip
