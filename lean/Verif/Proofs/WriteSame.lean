import Mathlib.Data.List.Forall2
import Verif.Proofs.WriteInvariant
/-!
# Runs of the same program under different sinks
-/

namespace AsyncZip
open Wr Spec

theorem completed_not {α : Type} {r : Res α} (h : Completed r) : ¬ WInterrupted r := by
  rintro (h' | ⟨c, h'⟩ | h')
  · exact (h _ h').1 rfl
  · exact (h _ h').2 _ rfl
  · exact (h _ h').2 _ rfl

/-- Closing an entry is first finishing the encoder and then the rest. -/
theorem closeStream_finish {C : Codec} {st : EntryStream C} {zw : ZipWriter} {evs : List Ev} {r : Res Unit} {t : WSt}
    (h : closeStream st ⟨zw, evs⟩ = (r, t)) (hr : ¬ WInterrupted r) :
    ∃ evs', closeStream ({ st with enc := none } : EntryStream C) ⟨zw.put (encTail st.enc), evs'⟩ = (r, t) := by
  obtain ⟨a, b, c, d, e, f, enc, g⟩ := st
  cases enc with
  | none =>
    simp only [encTail, put_nil]
    exact ⟨evs, h⟩
  | some s =>
    unfold closeStream at h ⊢
    simp only [encClose] at h ⊢
    rw [Wr.bind_def] at h
    cases hw : Wr.writeAll s.tail ⟨zw, evs⟩ with
    | mk x s1 =>
      rw [hw] at h
      cases x with
      | error x =>
        simp only [Prod.mk.injEq] at h
        obtain ⟨rfl, rfl⟩ := h
        rcases Outcome.writeAll (zw := zw) (buf := s.tail) evs with hi | hi
        · rw [hw] at hi
          exact absurd hi.cast hr
        · rw [hw] at hi
          cases hi.1
      | ok u =>
        have := (Outcome.writeAll (zw := zw) (buf := s.tail)).use hw not_winterrupted_ok
        refine ⟨s1.evs, ?_⟩
        rw [Wr.bind_ok (Wr.pure_def _ _)]
        simp only [encTail]
        rw [← this.2]
        exact h

/-- Running an encoder over pieces and flushes. -/
def encRun (C : Codec) (e : C.Enc) : List (Option Bytes) → C.Enc × Bytes
  | [] => (e, [])
  | some b :: ps => ((encRun C (C.feed e b).1 ps).1, (C.feed e b).2 ++ (encRun C (C.feed e b).1 ps).2)
  | none :: ps => ((encRun C (C.flush e).1 ps).1, (C.flush e).2 ++ (encRun C (C.flush e).1 ps).2)

/-- Once its encoder is closed, a stream accepts nothing: calls that all succeed are closes, draining what is left. -/
theorem runActs_closed {C : Codec} (acts : List StreamAct) : ∀ (zw : ZipWriter) (st : EntryStream C) (s : EncState C)
    (rs : List (Res Nat)) (zw' : ZipWriter) (st' : EntryStream C), st.enc = some s → s.fin = true →
    runActs zw st acts = (rs, zw', st') → AllOk rs →
    pieces acts rs = [] ∧ ∃ em s', st'.enc = some s' ∧ s.tail = em ++ s'.tail ∧
      zw' = (zw.put em).addFlushes (flushCount acts rs) := by
  induction acts with
  | nil =>
    intro zw st s rs zw' st' hs _ h _
    simp only [runActs, Prod.mk.injEq] at h
    obtain ⟨rfl, rfl, rfl⟩ := h
    exact ⟨rfl, [], s, hs, rfl, by rw [put_nil]; rfl⟩
  | cons a acts ih =>
    intro zw st s rs zw' st' hs hf h ho
    cases a with
    | write buf evs =>
      simp only [runActs, streamWrite, hs, hf, if_true, Prod.mk.injEq] at h
      obtain ⟨rfl, _, _⟩ := h
      obtain ⟨k, hk⟩ := ho _ List.mem_cons_self
      cases hk
    | flush evs =>
      simp only [runActs, streamFlush, hs, hf, if_true, Prod.mk.injEq] at h
      obtain ⟨rfl, _, _⟩ := h
      obtain ⟨k, hk⟩ := ho _ List.mem_cons_self
      cases hk
    | shut evs =>
      cases hl : writeAllLoop zw.writer s.tail evs with
      | mk r3 t3 =>
        obtain ⟨rest, w', evs'⟩ := t3
        simp only [runActs, streamShut, hs, hl] at h
        obtain ⟨x, h1, h2, h3⟩ := writeAllLoop_spec _ _ _ _ _ _ _ hl
        cases hr : runActs { zw with writer := w' } { st with enc := some { s with pend := rest, fin := true } } acts with
        | mk rs2 t2 =>
          obtain ⟨zw2, st2⟩ := t2
          rw [hr] at h
          simp only [Prod.mk.injEq] at h
          obtain ⟨rfl, rfl, rfl⟩ := h
          have ho2 : AllOk rs2 := fun x hx => ho x (List.mem_cons_of_mem _ hx)
          obtain ⟨g0, em, s', g1, g2, g3⟩ := ih _ _ { s with pend := rest, fin := true } rs2 zw2 st2 rfl rfl hr ho2
          have ht : ({ s with pend := rest, fin := true } : EncState C).tail = rest := by simp [EncState.tail]
          rw [ht] at g2
          refine ⟨?_, x ++ em, s', g1, ?_, ?_⟩
          · obtain ⟨k, hk⟩ := ho _ List.mem_cons_self
            rw [hk]; exact g0
          · rw [h1, g2, List.append_assoc]
          · rw [g3]
            simp [ZipWriter.put, ZipWriter.addFlushes, flushCount, h2, Nat.add_assoc]

theorem runActs_encRun {C : Codec} (acts : List StreamAct) : ∀ (zw : ZipWriter) (st : EntryStream C) (s : EncState C)
    (rs : List (Res Nat)) (zw' : ZipWriter) (st' : EntryStream C), st.enc = some s → s.fin = false →
    runActs zw st acts = (rs, zw', st') → AllOk rs → ∃ em s', st'.enc = some s' ∧
      s.pend ++ ((encRun C s.enc (pieces acts rs)).2 ++ C.finish (encRun C s.enc (pieces acts rs)).1) = em ++ s'.tail ∧
      zw' = (zw.put em).addFlushes (flushCount acts rs) := by
  induction acts with
  | nil =>
    intro zw st s rs zw' st' hs hf h _
    simp only [runActs, Prod.mk.injEq] at h
    obtain ⟨rfl, rfl, rfl⟩ := h
    exact ⟨[], s, hs, by simp [pieces, encRun, EncState.tail, hf], by rw [put_nil]; rfl⟩
  | cons a acts ih =>
    intro zw st s rs zw' st' hs hf h ho
    cases a with
    | write buf evs =>
      cases hw : streamWrite zw st buf evs with
      | mk r t =>
        obtain ⟨zw1, st1⟩ := t
        cases hr : runActs zw1 st1 acts with
        | mk rs2 t2 =>
          obtain ⟨zw2, st2⟩ := t2
          simp only [runActs, hw, hr, Prod.mk.injEq] at h
          obtain ⟨rfl, rfl, rfl⟩ := h
          obtain ⟨k, rfl⟩ := ho r List.mem_cons_self
          have ho2 : AllOk rs2 := fun x hx => ho x (List.mem_cons_of_mem _ hx)
          unfold streamWrite at hw
          rw [hs] at hw
          simp only [hf, Bool.false_eq_true, if_false] at hw
          obtain ⟨x, pend, h1, h2⟩ := encWrite_spec (C := C) buf evs zw.writer s
          simp only at h2
          rcases h2 with ⟨k', hk, h⟩ | ⟨c, k', h⟩ | h
          · rw [h] at hw
            simp only [Prod.mk.injEq, Except.ok.injEq] at hw
            obtain ⟨rfl, rfl, rfl⟩ := hw
            obtain ⟨em, s', g1, g3, g4⟩ := ih _ _ (EncState.feed { s with pend := pend } buf k') rs2 zw2 st2 rfl hf hr ho2
            refine ⟨x ++ em, s', g1, ?_, ?_⟩
            · simp only [pieces, encRun]
              simp only [EncState.feed] at g3
              rw [h1, List.append_assoc x em, ← g3]
              simp only [List.append_assoc]
            · rw [g4]
              simp [ZipWriter.put, ZipWriter.addFlushes, flushCount, Nat.add_assoc]
          · rw [h] at hw; cases hw
          · rw [h] at hw; cases hw
    | flush evs =>
      cases hw : streamFlush zw st evs with
      | mk r t =>
        obtain ⟨zw1, st1⟩ := t
        cases hr : runActs zw1 st1 acts with
        | mk rs2 t2 =>
          obtain ⟨zw2, st2⟩ := t2
          simp only [runActs, hw, hr, Prod.mk.injEq] at h
          obtain ⟨rfl, rfl, rfl⟩ := h
          have ho2 : AllOk rs2 := fun x hx => ho x (List.mem_cons_of_mem _ hx)
          obtain ⟨k, hk⟩ := ho _ List.mem_cons_self
          cases r with
          | error x => simp only [Except.map] at hk; cases hk
          | ok u =>
            unfold streamFlush at hw
            rw [hs] at hw
            simp only [hf, Bool.false_eq_true, if_false] at hw
            cases hl : writeAllLoop zw.writer (s.pend ++ (C.flush s.enc).2) evs with
            | mk r3 t3 =>
              obtain ⟨rest, w', evs'⟩ := t3
              rw [hl] at hw
              obtain ⟨x, h1, h2, h3⟩ := writeAllLoop_spec _ _ _ _ _ _ _ hl
              cases r3 with
              | error e => simp only [Prod.mk.injEq] at hw; cases hw.1
              | ok u =>
                have h3 := (h3.resolve_right not_winterrupted_ok).2
                rcases sinkFlush_spec w' evs' with hf2 | ⟨e, _, hf2⟩
                · simp only [hf2, Prod.mk.injEq] at hw
                  obtain ⟨_, rfl, rfl⟩ := hw
                  obtain ⟨em, s', g1, g3, g4⟩ := ih _ _ (⟨(C.flush s.enc).1, [], false⟩ : EncState C) rs2 zw2 st2 rfl rfl hr ho2
                  refine ⟨x ++ em, s', g1, ?_, ?_⟩
                  · simp only [pieces, encRun, Except.map]
                    simp only [List.nil_append] at g3
                    rw [List.append_assoc, List.append_assoc, ← g3, ← List.append_assoc, h1, h3, List.append_nil]
                  · rw [g4]
                    simp [ZipWriter.put, ZipWriter.addFlushes, flushCount, Except.map, h2, Nat.add_assoc]
                · simp only [hf2, Prod.mk.injEq] at hw
                  cases hw.1
    | shut evs =>
      cases hl : writeAllLoop zw.writer s.tail evs with
      | mk r3 t3 =>
        obtain ⟨rest, w', evs'⟩ := t3
        simp only [runActs, streamShut, hs, hl] at h
        obtain ⟨x, h1, h2, h3⟩ := writeAllLoop_spec _ _ _ _ _ _ _ hl
        cases hr : runActs { zw with writer := w' } { st with enc := some { s with pend := rest, fin := true } } acts with
        | mk rs2 t2 =>
          obtain ⟨zw2, st2⟩ := t2
          rw [hr] at h
          simp only [Prod.mk.injEq] at h
          obtain ⟨rfl, rfl, rfl⟩ := h
          have ho2 : AllOk rs2 := fun x hx => ho x (List.mem_cons_of_mem _ hx)
          obtain ⟨g0, em, s', g1, g2, g3⟩ :=
            runActs_closed acts _ _ { s with pend := rest, fin := true } rs2 zw2 st2 rfl rfl hr ho2
          have ht : ({ s with pend := rest, fin := true } : EncState C).tail = rest := by simp [EncState.tail]
          rw [ht] at g2
          obtain ⟨k, hk⟩ := ho _ List.mem_cons_self
          rw [hk]
          refine ⟨x ++ em, s', g1, ?_, ?_⟩
          · simp only [pieces, g0, encRun, List.nil_append]
            rw [List.append_assoc, ← g2, ← h1]
            simp [EncState.tail, hf]
          · rw [g3]
            simp [ZipWriter.put, ZipWriter.addFlushes, flushCount, h2, Nat.add_assoc]

theorem runOp_same {C : Codec} {zw : ZipWriter} {op op' : Op} (h : SameCall op (runOp C zw op).1 op' (runOp C zw op').1) :
    (runOp C zw op).2 = (runOp C zw op').2 := by
  generalize hr : (runOp C zw op).1 = r at h
  generalize hr' : (runOp C zw op').1 = r' at h
  cases h with
  | comment c => rfl
  | whole e d pre evs evs' r r' h h' =>
    simp only [runOp, OpResult.whole.injEq] at hr hr' ⊢
    exact ((Determined.writeWhole C e d pre).agree (x := r) (y := r') (by rw [← hr]) (by rw [← hr']) (completed_not h)
      (completed_not h')).2
  | rejected e pre evs evs' acts acts' fin fin' x x' h h' =>
    have key : ∀ evs acts fin x, (runOp C zw (.stream e pre evs acts fin)).1 = .stream (.error x) [] none →
        ∃ s, openStream C e pre ⟨zw, evs⟩ = (.error x, s) ∧ (runOp C zw (.stream e pre evs acts fin)).2 = s.zw := by
      intro evs acts fin x hx
      cases ho : openStream C e pre ⟨zw, evs⟩ with
      | mk r s =>
        cases r with
        | error y =>
          rw [runOp_open_error ho] at hx ⊢
          simp only [OpResult.stream.injEq, Except.error.injEq] at hx
          exact ⟨s, by rw [hx.1], rfl⟩
        | ok st =>
          exfalso
          cases h1 : runActs s.zw st acts with
          | mk rs t =>
            obtain ⟨zw', st'⟩ := t
            cases fin with
            | abandon => rw [runOp_abandon ho h1] at hx; cases hx
            | close evs' => rw [runOp_close ho h1 (r := _) (t := _) rfl] at hx; cases hx
    obtain ⟨s, o1, o2⟩ := key _ _ _ _ hr
    obtain ⟨s', o1', o2'⟩ := key _ _ _ _ hr'
    rw [o2, o2']
    exact ((Determined.openStream C e pre).agree o1 o1' (fun hw => completed_not h hw.cast)
      (fun hw => completed_not h' hw.cast)).2
  | stream e pre evs evs' cevs cevs' acts acts' rs rs' r r' h h' ha hf hp =>
    have key : ∀ evs acts cevs rs r, (runOp C zw (.stream e pre evs acts (.close cevs))).1 = .stream (.ok ()) rs (some r) →
        Completed r → ∃ s st zw' st' t evs1, openStream C e pre ⟨zw, evs⟩ = (.ok st, s) ∧ runActs s.zw st acts = (rs, zw', st') ∧
          closeStream ({ st' with enc := none } : EntryStream C) ⟨zw'.put (encTail st'.enc), evs1⟩ = (r, t) ∧
          (runOp C zw (.stream e pre evs acts (.close cevs))).2 = t.zw := by
      intro evs acts cevs rs r hx hc
      cases ho : openStream C e pre ⟨zw, evs⟩ with
      | mk ro s =>
        cases ro with
        | error y => rw [runOp_open_error ho] at hx; cases hx
        | ok st =>
          cases h1 : runActs s.zw st acts with
          | mk rs2 t =>
            obtain ⟨zw', st'⟩ := t
            cases h2 : closeStream st' ⟨zw', cevs⟩ with
            | mk r2 t2 =>
              rw [runOp_close ho h1 h2] at hx ⊢
              simp only [OpResult.stream.injEq, Option.some.injEq, true_and] at hx
              obtain ⟨rfl, rfl⟩ := hx
              obtain ⟨evs1, h3⟩ := closeStream_finish h2 (completed_not hc)
              exact ⟨s, st, zw', st', t2, evs1, rfl, h1, h3, rfl⟩
    obtain ⟨s1, st1, zw1, st1', t1, e1, o1, a1, c1, f1⟩ := key _ _ _ _ _ hr h
    obtain ⟨s2, st2, zw2, st2', t2, e2, o2, a2, c2, f2⟩ := key _ _ _ _ _ hr' h'
    rw [f1, f2]
    obtain ⟨hst, hzs⟩ := (Determined.openStream C e pre).agree o1 o2 not_winterrupted_ok not_winterrupted_ok
    simp only [Except.ok.injEq] at hst
    subst hst
    rw [← hzs] at a2
    obtain ⟨_, _, _, em1, fd1, b1, _, p1, _⟩ := runActs_spec acts s1.zw st1
    obtain ⟨_, _, _, em2, fd2, b2, _, p2, _⟩ := runActs_spec acts' s1.zw st1
    rw [a1] at b1
    rw [a2] at b2
    simp only [Prod.mk.injEq] at b1 b2
    obtain ⟨rfl, rfl, rfl⟩ := b1
    obtain ⟨rfl, rfl, rfl⟩ := b2
    obtain ⟨w1, enc1, q1, m1⟩ := p1
    obtain ⟨w2, enc2, q2, m2⟩ := p2
    have hstream : ({ st1' with enc := none } : EntryStream C) = { st2' with enc := none } := by
      rw [q1, q2, ha]
    have hput : zw1.put (encTail st1'.enc) = zw2.put (encTail st2'.enc) := by
      cases hse : st1.enc with
      | none =>
        rw [hse] at m1 m2
        obtain ⟨rfl, rfl⟩ := m1
        obtain ⟨rfl, rfl⟩ := m2
        rw [q1, q2, w1, w2, ha, hf]
      | some s =>
        have hno : ¬ (pre = true ∨ e.compression = .stored) := by
          obtain ⟨lfh, extra, enc, y1, y2, y3, y4, y5, y6⟩ := openStream_ok o1
          have hen : st1.enc = enc := by rw [y5]
          rw [hse] at hen
          rcases encFromRaw_ok y3 with ⟨z1, z2⟩ | ⟨z1, z2, z3, z4⟩
          · rw [z1] at hen; cases hen
          · rintro (h | h)
            · rw [z2] at h; cases h
            · exact z3 h
        obtain ⟨k1, k2, k3⟩ := hp.resolve_left hno
        have hfin : s.fin = false := by
          obtain ⟨lfh, extra, enc, y1, y2, y3, y4, y5, y6⟩ := openStream_ok o1
          have hen : st1.enc = enc := by rw [y5]
          rw [hse] at hen
          rcases encFromRaw_ok y3 with ⟨z1, z2⟩ | ⟨z1, z2, z3, z4⟩
          · rw [z1] at hen; cases hen
          · rw [z1] at hen; cases hen; rfl
        obtain ⟨em1, s1', g1, g3, g4⟩ := runActs_encRun acts _ _ s _ _ _ hse hfin a1 k1
        obtain ⟨em2, s2', j1, j3, j4⟩ := runActs_encRun acts' _ _ s _ _ _ hse hfin a2 k2
        rw [k3] at g3
        have : em1 ++ encTail st1'.enc = em2 ++ encTail st2'.enc := by
          rw [g1, j1]
          simp only [encTail]
          rw [← g3, ← j3]
        have e1 : ∀ (z : ZipWriter) (x y : Bytes) (k : Nat), ((z.put x).addFlushes k).put y = (z.put (x ++ y)).addFlushes k := by
          intro z x y k; simp [ZipWriter.put, ZipWriter.addFlushes, Nat.add_assoc]
        rw [g4, j4, e1, e1, this, hf]
    rw [hstream, hput] at c1
    exact ((Determined.closeStream _).agree c1 c2 (completed_not h) (completed_not h')).2

theorem runOps_same {C : Codec} (ops : List Op) : ∀ (ops' : List Op) (zw : ZipWriter),
    SamePrograms ops (runOps C zw ops).1 ops' (runOps C zw ops').1 → (runOps C zw ops).2 = (runOps C zw ops').2 := by
  induction ops with
  | nil =>
    intro ops' zw h
    cases ops' with
    | nil => rfl
    | cons op' ops' => simp only [runOps] at h; cases h
  | cons op ops ih =>
    intro ops' zw h
    cases ops' with
    | nil => simp only [runOps] at h; cases h
    | cons op' ops' =>
      simp only [runOps] at h ⊢
      cases h with
      | cons h hs =>
        have := runOp_same h
        rw [this] at hs ⊢
        exact ih ops' _ hs

end AsyncZip
