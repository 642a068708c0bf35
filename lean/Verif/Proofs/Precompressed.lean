import Verif.Spec.Precompressed
import Verif.Proofs.Irrelevant
import Verif.Proofs.WriteSame
/-!
# Compressing ahead of time
-/

namespace AsyncZip
open Wr Spec

/-- The measured entry is the same. -/
theorem wholeMeasure_packed {C : Codec} {e : ZipEntry} {d packed : Bytes} (hp : PackedAs C e d packed) :
    wholeMeasure C e d false =
      wholeMeasure C { e with crc32 := crc32Fn d, uncompressedSize := UInt64.ofNat d.length } packed true := by
  rcases hp with ⟨hm, rfl⟩ | ⟨hm, hc⟩
  · simp only [wholeMeasure, wholeCompress, hm, if_true, Bool.false_eq_true, if_false]
    rfl
  · have : compress C { e with uncompressedSize := UInt64.ofNat d.length, crc32 := crc32 d } d = compress C e d := rfl
    simp only [wholeMeasure, wholeCompress, hm, if_true, Bool.false_eq_true, if_false, this, hc]
    rfl

theorem writeWhole_packed {C : Codec} {e : ZipEntry} {d packed : Bytes} (hp : PackedAs C e d packed) :
    writeWhole C e d false =
      writeWhole C { e with crc32 := crc32Fn d, uncompressedSize := UInt64.ofNat d.length } packed true := by
  unfold writeWhole wholePrepare
  rw [wholeMeasure_packed hp]

/-- The program with every call that was packed replaced by the one with exactly the entry of the other. -/
theorem packed_exact {C : Codec} {op op' : Op} (h : AheadOfTime C op op') :
    ∃ mid, (∀ zw, runOp C zw op = runOp C zw mid) ∧ Alike mid op' := by
  cases h with
  | same =>
    refine ⟨op, fun _ => rfl, ?_⟩
    have hf : ∀ e : ZipEntry, SameFace e e := fun e => ⟨rfl, rfl, rfl, rfl, rfl, rfl, rfl⟩
    cases op with
    | comment c => exact .comment c
    | stream e pre evs acts fin => exact .stream _ _ _ _ (hf e) rfl rfl rfl
    | whole e d pre evs =>
      cases pre with
      | true => exact .ready _ _ (hf e) rfl rfl
      | false => exact .whole _ _ (hf e) fun _ => rfl
  | @packed e e' d packed evs hf hp hcrc hus =>
    refine ⟨.whole { e with crc32 := crc32Fn d, uncompressedSize := UInt64.ofNat d.length } packed true evs, fun zw => ?_, ?_⟩
    · simp only [runOp]
      rw [writeWhole_packed hp]
    · exact .ready _ _ ⟨hf.1, hf.2, hf.3, hf.4, hf.5, hf.6, hf.7⟩ hcrc.symm hus.symm

theorem packed_exacts {C : Codec} {ops ops' : List Op} (h : List.Forall₂ (AheadOfTime C) ops ops') :
    ∃ mid, (∀ zw, runOps C zw ops = runOps C zw mid) ∧ List.Forall₂ Alike mid ops' := by
  induction h with
  | nil => exact ⟨[], fun _ => rfl, .nil⟩
  | cons h _ ih =>
    obtain ⟨m, h1, h2⟩ := packed_exact h
    obtain ⟨ms, h3, h4⟩ := ih
    refine ⟨m :: ms, fun zw => ?_, .cons h2 h4⟩
    simp only [runOps]
    rw [h1 zw, h3]

/-- Opening a stream for compressed data does the same as opening one for data. -/
theorem openStream_pre {C : Codec} {e : ZipEntry} {s s' : WSt} {st : EntryStream C}
    (h : openStream C e false s = (.ok st, s')) :
    openStream C e true s = (.ok { st with enc := none, precompressed := true }, s') := by
  unfold openStream at h ⊢
  obtain ⟨w, s1, h1, h⟩ := Wr.bind_ok_iff.1 h
  rw [Wr.bind_ok h1]
  obtain ⟨⟨e1, hd⟩, s2, h2, h⟩ := Wr.bind_ok_iff.1 h
  rw [Wr.bind_ok h2]
  obtain ⟨w', s3, h3, h⟩ := Wr.bind_ok_iff.1 h
  simp only []
  rw [Wr.bind_ok h3]
  obtain ⟨enc, s4, h4, h5⟩ := Wr.bind_ok_iff.1 h
  obtain ⟨g4, rfl⟩ := wr_lift_ok h4
  have : encFromRaw C e1.compression true = .ok none := rfl
  rw [this, Wr.bind_ok (Wr.lift_def _ _)]
  simp only [Wr.pure_def, Prod.mk.injEq, Except.ok.injEq] at h5 ⊢
  obtain ⟨rfl, rfl⟩ := h5
  exact ⟨rfl, rfl⟩

/-- What closing a stream depends on. -/
theorem closeStream_congr {C : Codec} {st st' : EntryStream C} (h1 : st.enc = none) (h2 : st'.enc = none)
    (h3 : st.finalEntry = st'.finalEntry) (h4 : st.lfh = st'.lfh) (h5 : st.lfhOffset = st'.lfhOffset)
    (h6 : st.dataOffset = st'.dataOffset) : closeStream st = closeStream st' := by
  unfold closeStream
  rw [h1, h2, h3, h4, h5, h6]

/-- A completed stream. -/
theorem runOp_stream {C : Codec} {zw : ZipWriter} {e : ZipEntry} {pre : Bool} {evs cevs : List Ev} {acts : List StreamAct}
    {rs : List (Res Nat)} {r : Res Unit}
    (hx : (runOp C zw (.stream e pre evs acts (.close cevs))).1 = .stream (.ok ()) rs (some r)) (hc : Completed r) :
    ∃ s st zw' st' t evs1, openStream C e pre ⟨zw, evs⟩ = (.ok st, s) ∧ runActs s.zw st acts = (rs, zw', st') ∧
      closeStream ({ st' with enc := none } : EntryStream C) ⟨zw'.put (encTail st'.enc), evs1⟩ = (r, t) ∧
      (runOp C zw (.stream e pre evs acts (.close cevs))).2 = t.zw := by
  cases ho : openStream C e pre ⟨zw, evs⟩ with
  | mk ro s =>
    cases ro with
    | error y => rw [runOp_open_error ho] at hx; cases hx
    | ok st =>
      cases h1 : runActs s.zw st acts with
      | mk rs2 t =>
        obtain ⟨zw', st'⟩ := t
        cases h2 : closeStream st' ⟨zw', cevs⟩ with
        | mk r2 t2 =>
          rw [runOp_close ho h1 h2] at hx ⊢
          simp only [OpResult.stream.injEq, Option.some.injEq, true_and] at hx
          obtain ⟨rfl, rfl⟩ := hx
          obtain ⟨evs1, h3⟩ := closeStream_finish h2 (completed_not hc)
          exact ⟨s, st, zw', st', t2, evs1, rfl, h1, h3, rfl⟩

/-- What `compress` returns. -/
theorem compress_ok {C : Codec} {e : ZipEntry} {d packed : Bytes} (hn : e.compression ≠ .stored)
    (h : compress C e d = .ok packed) : packed = (C.feed (C.start e.compression e.compressionLevel) d).2 ++
      C.finish (C.feed (C.start e.compression e.compressionLevel) d).1 := by
  unfold compress at h
  split at h
  · exact absurd (by assumption) hn
  · cases h
  · exact (Except.ok.inj h).symm

theorem runOp_streamAhead {C : Codec} {zw : ZipWriter} {op op' : Op}
    (h : StreamAheadOfTime C op (runOp C zw op).1 op' (runOp C zw op').1) : (runOp C zw op).2 = (runOp C zw op').2 := by
  generalize hr : (runOp C zw op).1 = r at h
  generalize hr' : (runOp C zw op').1 = r' at h
  cases h with
  | same h =>
    subst hr hr'
    exact runOp_same h
  | @packed e packed evs evs' cevs cevs' acts acts' rs rs' r r' h h' hp hone ha hf hcrc hus =>
    obtain ⟨s1, st1, zw1, st1', t1, e1, o1, a1, c1, f1⟩ := runOp_stream hr h
    obtain ⟨s2, st2, zw2, st2', t2, e2, o2, a2, c2, f2⟩ := runOp_stream hr' h'
    rw [f1, f2]
    obtain ⟨hst, hzs⟩ := (Determined.openStream C e true).agree (openStream_pre o1) o2 not_winterrupted_ok not_winterrupted_ok
    simp only [Except.ok.injEq] at hst
    subst hst
    rw [← hzs] at a2
    obtain ⟨lfh, extra, enc, y1, y2, y3, y4, y5, y6⟩ := openStream_ok o1
    obtain ⟨_, _, _, em1, fd1, b1, _, p1, _⟩ := runActs_spec acts s1.zw st1
    obtain ⟨_, _, _, em2, fd2, b2, _, p2, _⟩ := runActs_spec acts' s1.zw ({ st1 with enc := none, precompressed := true } : EntryStream C)
    rw [a1] at b1
    rw [a2] at b2
    simp only [Prod.mk.injEq] at b1 b2
    obtain ⟨rfl, rfl, rfl⟩ := b1
    obtain ⟨rfl, rfl, rfl⟩ := b2
    obtain ⟨w1, enc1, q1, m1⟩ := p1
    obtain ⟨w2, enc2, q2, m2⟩ := p2
    simp only at m2
    obtain ⟨rfl, rfl⟩ := m2
    have hentry : ({ st1' with enc := none } : EntryStream C).finalEntry = ({ st2' with enc := none } : EntryStream C).finalEntry := by
      rw [q1, q2, y5]
      unfold EntryStream.finalEntry
      simp only [Bool.false_eq_true, if_false, if_true]
      have h1 : (Hasher.new.update (accepted acts rs)).finalize = e.crc32 := hcrc.symm
      have h2 : UInt64.ofNat (0 + (accepted acts rs).length) = e.uncompressedSize := by rw [Nat.zero_add, hus]
      rw [h1, h2]
      rfl
    have hput : zw1.put (encTail st1'.enc) = zw2.put (encTail st2'.enc) := by
      have hen : st1.enc = enc := by rw [y5]
      have hs2 : encTail st2'.enc = [] := by rw [q2]; rfl
      rw [hs2, put_nil, w2, hf, ha]
      rcases encFromRaw_ok y3 with ⟨z1, z2⟩ | ⟨z1, z2, z3, z4⟩
      · rw [hen, z1] at m1
        obtain ⟨rfl, rfl⟩ := m1
        have hst : e.compression = .stored := z2.resolve_left (by decide)
        rcases hp with ⟨_, rfl⟩ | ⟨hn, _⟩
        · have hs1 : encTail st1'.enc = [] := by rw [q1]; rfl
          rw [hs1, put_nil, w1]
        · exact absurd hst hn
      · obtain ⟨hall, hpc⟩ := hone.resolve_left z3
        obtain ⟨em, s', g1, g3, g4⟩ := runActs_encRun acts _ _ _ _ _ _ (hen.trans z1) rfl a1 hall
        rcases hp with ⟨hn, _⟩ | ⟨_, hc⟩
        · exact absurd hn z3
        · have hpk : packed = em ++ s'.tail := by
            rw [hpc] at g3
            rw [← g3]
            have := compress_ok (e := { e with compressionLevel := .default }) z3 hc
            rw [this]
            simp [encRun]
          rw [g4, g1, hpk]
          simp [encTail, ZipWriter.put, ZipWriter.addFlushes, Nat.add_assoc]
    have hclose := closeStream_congr (st := { st1' with enc := none }) (st' := { st2' with enc := none }) rfl rfl hentry
      (by rw [q1, q2]) (by rw [q1, q2]) (by rw [q1, q2])
    rw [hclose, hput] at c1
    exact ((Determined.closeStream _).agree c1 c2 (completed_not h) (completed_not h')).2

theorem runOps_streamAhead {C : Codec} (ops : List Op) : ∀ (ops' : List Op) (zw : ZipWriter),
    ProgramsAheadOfTime C ops (runOps C zw ops).1 ops' (runOps C zw ops').1 → (runOps C zw ops).2 = (runOps C zw ops').2 := by
  induction ops with
  | nil =>
    intro ops' zw h
    cases ops' with
    | nil => rfl
    | cons op' ops' => simp only [runOps] at h; cases h
  | cons op ops ih =>
    intro ops' zw h
    cases ops' with
    | nil => simp only [runOps] at h; cases h
    | cons op' ops' =>
      simp only [runOps] at h ⊢
      cases h with
      | cons h hs =>
        have := runOp_streamAhead h
        rw [this] at hs ⊢
        exact ih ops' _ hs

end AsyncZip
