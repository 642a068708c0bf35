import Verif.Props.Writing
import Verif.Proofs.WritePanic
/-!
# C60: closing an entry's writer through `AsyncWrite` before closing the entry
-/

namespace AsyncZip
open Spec Wr Samples

theorem runActs_append {C : Codec} (a b : List StreamAct) : ∀ (zw : ZipWriter) (st : EntryStream C),
    runActs zw st (a ++ b) =
      ((runActs zw st a).1 ++ (runActs (runActs zw st a).2.1 (runActs zw st a).2.2 b).1,
        (runActs (runActs zw st a).2.1 (runActs zw st a).2.2 b).2) := by
  induction a with
  | nil => intro zw st; rfl
  | cons x a ih =>
    intro zw st
    cases x <;> simp only [List.cons_append, runActs, ih]

theorem accepted_append (a b : List StreamAct) : ∀ (rs ss : List (Res Nat)), rs.length = a.length →
    accepted (a ++ b) (rs ++ ss) = accepted a rs ++ accepted b ss := by
  induction a with
  | nil => intro rs ss h; cases rs with | nil => simp [accepted] | cons r rs => cases h
  | cons x a ih =>
    intro rs ss h
    cases rs with
    | nil => cases h
    | cons r rs =>
      have := ih rs ss (by simpa using h)
      cases x <;> cases r <;> simp [accepted, this]

theorem flushCount_append (a b : List StreamAct) : ∀ (rs ss : List (Res Nat)), rs.length = a.length →
    flushCount (a ++ b) (rs ++ ss) = flushCount a rs + flushCount b ss := by
  induction a with
  | nil => intro rs ss h; cases rs with | nil => simp [flushCount] | cons r rs => cases h
  | cons x a ih =>
    intro rs ss h
    cases rs with
    | nil => cases h
    | cons r rs =>
      have := ih rs ss (by simpa using h)
      cases x <;> cases r <;> simp [flushCount, this, Nat.add_assoc]

theorem pieces_append (a b : List StreamAct) : ∀ (rs ss : List (Res Nat)), rs.length = a.length →
    pieces (a ++ b) (rs ++ ss) = pieces a rs ++ pieces b ss := by
  induction a with
  | nil => intro rs ss h; cases rs with | nil => simp [pieces] | cons r rs => cases h
  | cons x a ih =>
    intro rs ss h
    cases rs with
    | nil => cases h
    | cons r rs =>
      have := ih rs ss (by simpa using h)
      cases x <;> cases r <;> simp [pieces, this]

/-- C60. Closing the writer of an entry through `AsyncWrite`, when all its data went in, and then closing the entry leaves the
archive exactly as closing the entry alone does: the same bytes, the same directory. -/
theorem C60_same (C : Codec) (zw : ZipWriter) (e : ZipEntry) (pre : Bool) (evs cevs cevs' sevs : List Ev)
    (acts : List StreamAct) (rs rs' : List (Res Nat)) (r r' : Res Unit)
    (h : (runOp C zw (.stream e pre evs acts (.close cevs))).1 = .stream (.ok ()) rs (some r))
    (h' : (runOp C zw (.stream e pre evs (acts ++ [.shut sevs]) (.close cevs'))).1 = .stream (.ok ()) rs' (some r'))
    (ho : AllOk rs') (hr : Completed r) (hr' : Completed r') :
    (runOp C zw (.stream e pre evs acts (.close cevs))).2 =
      (runOp C zw (.stream e pre evs (acts ++ [.shut sevs]) (.close cevs'))).2 := by
  apply runOp_same
  rw [h, h']
  cases ho1 : openStream C e pre ⟨zw, evs⟩ with
  | mk q s =>
    cases q with
    | error x => rw [runOp_open_error ho1] at h; cases h
    | ok st =>
      obtain ⟨rs1, zw1, st1, em, f, a1, a2, _, _⟩ := runActs_spec acts s.zw st
      have b1 := runActs_append acts [.shut sevs] s.zw st
      rw [a1] at b1
      obtain ⟨q1, zw2, st2, em2, c1, c2, c3⟩ := streamShut_spec zw1 st1 sevs
      simp only [runActs, c1] at b1
      cases hc : closeStream st1 ⟨zw1, cevs⟩ with
      | mk x t =>
        cases hc' : closeStream st2 ⟨zw2, cevs'⟩ with
        | mk x' t' =>
          rw [runOp_close ho1 a1 hc] at h
          rw [runOp_close ho1 b1 hc'] at h'
          cases h
          cases h'
          have ho2 : AllOk rs := fun y hy => ho y (List.mem_append_left _ hy)
          obtain ⟨k, hk⟩ := ho (q1.map fun _ => 0) (by simp)
          refine .stream _ _ _ _ _ _ _ _ _ _ _ _ hr hr' ?_ ?_ (Or.inr ⟨ho2, ho, ?_⟩)
          · rw [accepted_append _ _ _ _ a2]; simp [accepted]
          · rw [flushCount_append _ _ _ _ a2]; simp [flushCount]
          · rw [pieces_append _ _ _ _ a2, hk]; simp [pieces]

/-- Calls on a closed compressor. -/
theorem runActs_refused {C : Codec} (acts : List StreamAct) : ∀ (zw : ZipWriter) (st : EntryStream C),
    st.shutState = some true → List.Forall₂ (fun a r => isUse a = true → ∃ x, r = .error x) acts (runActs zw st acts).1 ∧
      ∃ k, accepted acts (runActs zw st acts).1 = [] ∧ flushCount acts (runActs zw st acts).1 = k ∧ k = 0 := by
  induction acts with
  | nil => intro zw st _; exact ⟨.nil, 0, rfl, rfl, rfl⟩
  | cons a acts ih =>
    intro zw st h
    obtain ⟨s, hs, hf⟩ : ∃ s, st.enc = some s ∧ s.fin = true := by
      unfold EntryStream.shutState at h
      cases he : st.enc with
      | none => rw [he] at h; cases h
      | some s => rw [he] at h; exact ⟨s, rfl, by simpa using h⟩
    cases a with
    | write buf evs =>
      obtain ⟨h1, k, h2, h3, h4⟩ := ih zw st h
      simp only [runActs, streamWrite, hs, hf, if_true]
      exact ⟨.cons (fun _ => ⟨_, rfl⟩) h1, k, by simpa [accepted] using h2, by simpa [flushCount] using h3, h4⟩
    | flush evs =>
      obtain ⟨h1, k, h2, h3, h4⟩ := ih zw st h
      simp only [runActs, streamFlush, hs, hf, if_true]
      exact ⟨.cons (fun _ => ⟨_, rfl⟩) h1, k, by simpa [accepted] using h2, by simpa [flushCount, Except.map] using h3, h4⟩
    | shut evs =>
      have hk := streamShut_shut zw st evs
      rw [h] at hk
      cases hq : streamShut zw st evs with
      | mk q t =>
        obtain ⟨zw1, st1⟩ := t
        rw [hq] at hk
        obtain ⟨h1, k, h2, h3, h4⟩ := ih zw1 st1 hk
        simp only [runActs, hq]
        exact ⟨.cons (fun h => by cases h) h1, k, by simpa [accepted] using h2, by simpa [flushCount] using h3, h4⟩

/-- C60. After the writer of a compressed entry was closed through `AsyncWrite`, whatever came of that, every write and flush
fails, and the entry's data remain those accepted before. -/
theorem C60_refused (C : Codec) (zw : ZipWriter) (e : ZipEntry) (evs sevs : List Ev) (hs : e.compression ≠ .stored)
    (acts more : List StreamAct) (fin : StreamEnd) (rs : List (Res Nat)) (r : Option (Res Unit))
    (h : (runOp C zw (.stream e false evs (acts ++ .shut sevs :: more) fin)).1 = .stream (.ok ()) rs r) :
    ∃ before now after, rs = before ++ now :: after ∧ before.length = acts.length ∧
      List.Forall₂ (fun a r => isUse a = true → ∃ x, r = .error x) more after ∧
      accepted (acts ++ .shut sevs :: more) rs = accepted acts before := by
  cases ho : openStream C e false ⟨zw, evs⟩ with
  | mk q s =>
    cases q with
    | error x => rw [runOp_open_error ho] at h; cases h
    | ok st =>
      obtain ⟨rs1, zw1, st1, em, f, a1, a2, a3, _⟩ := runActs_spec acts s.zw st
      have b1 := runActs_append acts (.shut sevs :: more) s.zw st
      rw [a1] at b1
      have hk := streamShut_shut zw1 st1 sevs
      obtain ⟨q1, zw2, st2, em2, c1, c2, c3⟩ := streamShut_spec zw1 st1 sevs
      rw [c1] at hk
      have hst1 : st1.shutState.map (fun _ => true) = some true := by
        obtain ⟨lf, extra, enc, o1, o2, o3, o4, o5, _⟩ := openStream_ok ho
        obtain ⟨enc', a6, a7⟩ := a3.stream
        rcases encFromRaw_ok o3 with ⟨_, p⟩ | ⟨rfl, _⟩
        · exact absurd (p.resolve_left (by simp)) hs
        · rw [o5] at a7
          simp only at a7
          obtain ⟨s', rfl, _⟩ := a7
          rw [a6]; rfl
      obtain ⟨d1, k, d2, d3, d4⟩ := runActs_refused more zw2 st2 (hk.trans hst1)
      simp only [runActs, c1] at b1
      have hrs : rs = rs1 ++ ((q1.map fun _ => 0) :: (runActs zw2 st2 more).1) := by
        cases fin with
        | abandon => rw [runOp_abandon ho b1] at h; cases h; rfl
        | close evs' =>
          cases hc : closeStream (runActs zw2 st2 more).2.2 ⟨(runActs zw2 st2 more).2.1, evs'⟩ with
          | mk x t => rw [runOp_close ho b1 hc] at h; cases h; rfl
      refine ⟨rs1, _, _, hrs, a2, d1, ?_⟩
      rw [hrs, accepted_append _ _ _ _ a2]
      simp [accepted, d2]

/-- C60. For entries stored as they are, closing the writer through `AsyncWrite` does nothing: it may be used on, and leaving
such closes out changes neither what the other calls return nor the archive. -/
theorem C60_stored (C : Codec) (zw : ZipWriter) (e : ZipEntry) (pre : Bool) (hs : pre = true ∨ e.compression = .stored)
    (evs : List Ev) (acts : List StreamAct) (fin : StreamEnd) :
    (runOp C zw (.stream e pre evs acts fin)).2 = (runOp C zw (.stream e pre evs (acts.filter isUse) fin)).2 ∧
    ∃ o rs r, (runOp C zw (.stream e pre evs acts fin)).1 = .stream o rs r ∧
      (runOp C zw (.stream e pre evs (acts.filter isUse) fin)).1 =
        .stream o (((acts.zip rs).filter fun p => isUse p.1).map (·.2)) r := by
  have key : ∀ (acts : List StreamAct) (zw : ZipWriter) (st : EntryStream C), st.enc = none →
      (runActs zw st acts).2 = (runActs zw st (acts.filter isUse)).2 ∧
      (runActs zw st (acts.filter isUse)).1 = ((acts.zip (runActs zw st acts).1).filter fun p => isUse p.1).map (·.2) := by
    intro acts
    induction acts with
    | nil => intro zw st _; exact ⟨rfl, rfl⟩
    | cons a acts ih =>
      intro zw st h
      cases a with
      | write buf evs =>
        obtain ⟨q, zw1, st1, h1, h2⟩ := streamWrite_spec zw st buf evs
        have hk := streamWrite_shut zw st buf evs
        rw [h1] at hk
        have hn : st1.enc = none := by simpa [EntryStream.shutState, h] using hk
        obtain ⟨i1, i2⟩ := ih zw1 st1 hn
        simp only [List.filter, isUse, runActs, h1, List.zip_cons_cons, List.map_cons]
        exact ⟨i1, by rw [i2]; rfl⟩
      | flush evs =>
        obtain ⟨q, zw1, st1, em, h1, h2⟩ := streamFlush_spec zw st evs
        have hk := streamFlush_shut zw st evs
        rw [h1] at hk
        have hn : st1.enc = none := by simpa [EntryStream.shutState, h] using hk
        obtain ⟨i1, i2⟩ := ih zw1 st1 hn
        simp only [List.filter, isUse, runActs, h1, List.zip_cons_cons, List.map_cons]
        exact ⟨i1, by rw [i2]; rfl⟩
      | shut evs =>
        simp only [List.filter, isUse, runActs, streamShut, h, List.zip_cons_cons]
        exact ih zw st h
  cases ho : openStream C e pre ⟨zw, evs⟩ with
  | mk q s =>
    cases q with
    | error x =>
      refine ⟨by simp only [runOp, ho], .error x, [], none, by rw [runOp_open_error ho], ?_⟩
      rw [runOp_open_error ho]; simp
    | ok st =>
      have hn : st.enc = none := by
        obtain ⟨lf, extra, enc, o1, o2, o3, o4, o5, _⟩ := openStream_ok ho
        rcases encFromRaw_ok o3 with ⟨rfl, p⟩ | ⟨rfl, p1, p2, _⟩
        · rw [o5]
        · rcases hs with h | h
          · rw [p1] at h; cases h
          · exact absurd h p2
      obtain ⟨hk, hk2⟩ := key acts s.zw st hn
      obtain ⟨rs1, zw1, st1, em, f, a1, a2, a3, _⟩ := runActs_spec acts s.zw st
      obtain ⟨rs2, zw2, st2, em', f', b1, b2, b3, _⟩ := runActs_spec (acts.filter isUse) s.zw st
      rw [a1, b1] at hk hk2
      simp only at hk2
      cases hk
      cases fin with
      | abandon =>
        rw [runOp_abandon ho a1, runOp_abandon ho b1]
        exact ⟨rfl, _, _, _, rfl, by rw [hk2]⟩
      | close evs' =>
        cases hc : closeStream st1 ⟨zw1, evs'⟩ with
        | mk x t =>
          rw [runOp_close ho a1 hc, runOp_close ho b1 hc]
          exact ⟨rfl, _, _, _, rfl, by rw [hk2]⟩

/-! ## The hypotheses are met -/

/-- Closing the writer first, over a slow sink, and not closing it first, both complete. -/
example : (runOp markCodec fresh (.stream deflatedEntry false eager [.write [7, 8, 9] eager, .flush eager] (.close eager))).1 =
      .stream (.ok ()) [.ok 3, .ok 0] (some (.ok ())) ∧
    (runOp markCodec fresh (.stream deflatedEntry false eager ([.write [7, 8, 9] eager, .flush eager] ++ [.shut slow])
      (.close eager))).1 = .stream (.ok ()) [.ok 3, .ok 0, .ok 0] (some (.ok ())) ∧
    AllOk [.ok 3, .ok 0, .ok 0] := by
  refine ⟨by decide +kernel, by decide +kernel, ?_⟩
  intro r hr
  simp only [List.mem_cons, List.not_mem_nil, or_false] at hr
  rcases hr with rfl | rfl | rfl <;> exact ⟨_, rfl⟩

/-- A close that the sink cuts short, a write that fails after it, another close, and the entry is complete nonetheless. -/
example : (runOp markCodec fresh (.stream deflatedEntry false eager
      ([.write [7, 8, 9] eager] ++ .shut [.accept 1, .error 3 0] :: [.write [1] eager, .shut eager]) (.close eager))).1 =
    .stream (.ok ()) [.ok 3, .error (sinkErr 3), .error .panic, .ok 0] (some (.ok ())) := by
  decide +kernel

/-- A stored entry goes on after a close. -/
example : (runOp markCodec fresh (.stream storedEntry false eager [.write [1] eager, .shut [], .write [2] eager] (.close eager))).1 =
    .stream (.ok ()) [.ok 1, .ok 0, .ok 1] (some (.ok ())) := by decide +kernel

end AsyncZip
