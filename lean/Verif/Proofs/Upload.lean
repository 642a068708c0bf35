import Verif.Spec.Upload
import Verif.Props.EarlyClose
import Verif.Props.Fits
import Verif.Props.Limits
/-!
# Lemmas for C104
-/

namespace AsyncZip
open Spec Wr

theorem runActs_len {C : Codec} (acts : List StreamAct) : ∀ (zw : ZipWriter) (st : EntryStream C),
    (runActs zw st acts).1.length = acts.length := by
  induction acts with
  | nil => intro zw st; rfl
  | cons a acts ih => intro zw st; cases a <;> simp only [runActs, List.length_cons, ih]

/-- Writing a piece is a number of plain calls. -/
theorem writeAllBuf_acts {C : Codec} : ∀ (evss : List (List Ev)) (zw : ZipWriter) (st : EntryStream C) (buf : Bytes), ∃ acts,
    (runActs zw st acts).2 = (writeAllBuf zw st buf evss).2 ∧ (∀ a ∈ acts, ∃ b ev, a = .write b ev) ∧
    ∀ evss', (writeAllBuf zw st buf evss).1 = .done evss' → AllOk (runActs zw st acts).1 ∧ accepted acts (runActs zw st acts).1 = buf
  | [], zw, st, buf => by
    refine ⟨[], rfl, fun a h => (by cases h), fun evss' h => ⟨fun r h => (by cases h), ?_⟩⟩
    by_cases hb : buf.length = 0
    · rw [List.length_eq_zero_iff.1 hb]; rfl
    · simp only [writeAllBuf, if_neg hb] at h
      cases h
  | evs :: evss, zw, st, buf => by
    by_cases hb : buf.length = 0
    · refine ⟨[], by rw [writeAllBuf, if_pos hb]; rfl, fun a h => (by cases h), fun evss' h => ⟨fun r h => (by cases h), ?_⟩⟩
      rw [List.length_eq_zero_iff.1 hb]; rfl
    · rw [writeAllBuf, if_neg hb]
      rcases hw : streamWrite zw st buf evs with ⟨r, zw', st'⟩
      rcases r with e | k
      · refine ⟨[.write buf evs], ?_, fun a h => ⟨_, _, List.mem_singleton.1 h⟩, fun evss' h => ?_⟩
        · simp only [runActs, hw]
        · cases e <;> cases h
      · cases k with
        | zero =>
          refine ⟨[.write buf evs], ?_, fun a h => ⟨_, _, List.mem_singleton.1 h⟩, fun evss' h => (by cases h)⟩
          simp only [runActs, hw]
        | succ k =>
          obtain ⟨acts, h1, h2, h3⟩ := writeAllBuf_acts evss zw' st' (buf.drop (k + 1))
          refine ⟨.write buf evs :: acts, ?_, fun a h => ?_, fun evss' h => ?_⟩
          · simp only [runActs, hw]
            exact h1
          · rcases List.mem_cons.1 h with rfl | h
            · exact ⟨_, _, rfl⟩
            · exact h2 a h
          · obtain ⟨g1, g2⟩ := h3 evss' h
            simp only [runActs, hw]
            refine ⟨fun r hr => ?_, ?_⟩
            · rcases List.mem_cons.1 hr with rfl | hr
              · exact ⟨_, rfl⟩
              · exact g1 r hr
            · rw [accepted, g2, List.take_append_drop]

/-- So is writing all pieces of a part. -/
theorem uploadChunks_acts {C : Codec} : ∀ (cs : List (Option Bytes)) (evss : List (List Ev)) (zw : ZipWriter) (st : EntryStream C),
    ∃ acts, (runActs zw st acts).2 = (uploadChunks cs evss zw st).2 ∧ (∀ a ∈ acts, ∃ b ev, a = .write b ev) ∧
    ((uploadChunks cs evss zw st).1 = .done () → ∃ bs : List Bytes, cs = bs.map some ∧ AllOk (runActs zw st acts).1 ∧
      accepted acts (runActs zw st acts).1 = bs.flatten)
  | [], evss, zw, st => ⟨[], rfl, fun a h => (by cases h), fun _ => ⟨[], rfl, fun r h => (by cases h), rfl⟩⟩
  | none :: cs, evss, zw, st => ⟨[], rfl, fun a h => (by cases h), fun h => (by cases h)⟩
  | some b :: cs, evss, zw, st => by
    obtain ⟨acts, h1, h2, h3⟩ := writeAllBuf_acts evss zw st b
    rw [uploadChunks]
    rcases hw : writeAllBuf zw st b evss with ⟨r, zw', st'⟩
    rw [hw] at h1 h3
    cases r with
    | done evss' =>
      obtain ⟨acts', k1, k2, k3⟩ := uploadChunks_acts cs evss' zw' st'
      refine ⟨acts ++ acts', ?_, fun a h => ?_, fun h => ?_⟩
      · rw [runActs_append, h1]
        exact k1
      · rcases List.mem_append.1 h with h | h
        · exact h2 a h
        · exact k2 a h
      · obtain ⟨bs, g1, g2, g3⟩ := k3 h
        obtain ⟨f1, f2⟩ := h3 _ rfl
        refine ⟨b :: bs, by rw [g1]; rfl, ?_, ?_⟩
        · rw [runActs_append, h1]
          intro r hr
          rcases List.mem_append.1 hr with hr | hr
          · exact f1 r hr
          · exact g2 r hr
        · rw [runActs_append, h1, accepted_append _ _ _ _ (runActs_len acts zw st), f2]
          simp only
          rw [g3, List.flatten_cons]
    | refused => exact ⟨acts, h1, h2, fun h => (by cases h)⟩
    | panic => exact ⟨acts, h1, h2, fun h => (by cases h)⟩
    | running => exact ⟨acts, h1, h2, fun h => (by cases h)⟩

theorem unwrapped_done {α : Type} {r : Res α} {a : α} : Packing.unwrapped r = .done a ↔ r = .ok a := by
  cases r with
  | ok b => exact ⟨fun h => by cases h; rfl, fun h => by cases h; rfl⟩
  | error e => cases e <;> exact ⟨fun h => (by cases h), fun h => (by cases h)⟩

/-- What is done about a part is one call. -/
theorem uploadPart_op (C : Codec) (name : RString) (p : Part) (evs : PartEvs) (zw : ZipWriter) : ∃ op,
    (runOp C zw op).2 = (uploadPart C name p evs zw).2 ∧
    ((uploadPart C name p evs zw).1 = .done () → ∃ bs : List Bytes, p.chunks = bs.map some ∧
      UploadCall name.bytes bs.flatten op (runOp C zw op).1) := by
  unfold uploadPart
  rcases ho : openStream C (ZipEntry.new (ZipString.ofString name) .deflate) false { zw, evs := evs.opening } with ⟨r, s⟩
  cases r with
  | error e =>
    refine ⟨.stream (ZipEntry.new (ZipString.ofString name) .deflate) false evs.opening [] .abandon, ?_, fun h => ?_⟩
    · simp only [runOp, ho]
    · cases unwrapped_done.1 h
  | ok st =>
    obtain ⟨acts, h1, h2, h3⟩ := uploadChunks_acts p.chunks evs.writes s.zw st
    simp only
    rcases hu : uploadChunks p.chunks evs.writes s.zw st with ⟨q, zw', st'⟩
    rw [hu] at h1 h3
    rcases ha : runActs s.zw st acts with ⟨rs, x⟩
    rw [ha] at h1 h3
    obtain rfl : x = (zw', st') := h1
    cases q with
    | done u =>
      rcases hc : closeStream st' { zw := zw', evs := evs.closing } with ⟨c, s'⟩
      refine ⟨.stream (ZipEntry.new (ZipString.ofString name) .deflate) false evs.opening acts (.close evs.closing), ?_, fun h => ?_⟩
      · simp only [runOp, ho, ha, hc]
      · obtain ⟨bs, g1, g2, g3⟩ := h3 rfl
        have hr := unwrapped_done.1 h
        rw [hc] at hr
        obtain rfl : c = .ok () := hr
        refine ⟨bs, g1, evs.opening, acts, evs.closing, rs, rfl, ?_, g2, g3, h2⟩
        simp only [runOp, ho, ha, hc]
    | refused =>
      refine ⟨.stream (ZipEntry.new (ZipString.ofString name) .deflate) false evs.opening acts .abandon, ?_, fun h => (by cases h)⟩
      simp only [runOp, ho, ha]
    | panic =>
      refine ⟨.stream (ZipEntry.new (ZipString.ofString name) .deflate) false evs.opening acts .abandon, ?_, fun h => (by cases h)⟩
      simp only [runOp, ho, ha]
    | running =>
      refine ⟨.stream (ZipEntry.new (ZipString.ofString name) .deflate) false evs.opening acts .abandon, ?_, fun h => (by cases h)⟩
      simp only [runOp, ho, ha]

theorem partName_bytes (san : RString → RString) (uuid : Nat → RString) (k : Nat) (p : Part) :
    (partName san uuid k p).bytes = entryName san (uuid k) p.filename := by
  unfold partName entryName
  cases p.filename <;> rfl

theorem uploadCalls_cons {san : RString → RString} {uuid : Nat → RString} {k : Nat} {parts : List (Option RString × List Bytes)}
    {ops : List Op} {rs : List OpResult} {x : Option RString × List Bytes} {op : Op} {r : OpResult}
    (h : UploadCall (entryName san (uuid k) x.1) x.2.flatten op r) (t : UploadCalls san uuid (k + 1) parts ops rs) :
    UploadCalls san uuid k (x :: parts) (op :: ops) (r :: rs) where
  count := by rw [List.length_cons, List.length_cons, t.count]
  results := by rw [List.length_cons, List.length_cons, t.results]
  each i y hy := by
    cases i with
    | zero =>
      obtain rfl : x = y := by simpa using hy
      exact ⟨op, r, rfl, rfl, h⟩
    | succ i =>
      obtain ⟨op', r', g1, g2, g3⟩ := t.each i y (by simpa using hy)
      exact ⟨op', r', by simpa using g1, by simpa using g2, by rw [show k + (i + 1) = k + 1 + i by omega]; exact g3⟩

/-- The loop is a number of calls: those for the parts that came through, and, unless it came to its end, at most one more. -/
theorem uploadLoop_ops (C : Codec) (san : RString → RString) (uuid : Nat → RString) (evs : Nat → PartEvs) :
    ∀ (body : List (Option Part)) (k : Nat) (zw : ZipWriter), ∃ (parts : List (Option RString × List Bytes)) (ops rest : List Op),
    UploadCalls san uuid k parts ops (runOps C zw ops).1 ∧ (parts.map fun x => some (Part.mk x.1 (x.2.map some))) <+: body ∧
    (runOps C zw (ops ++ rest)).2 = (uploadLoop C san uuid evs body k zw).2 ∧ rest.length ≤ 1 ∧
    ((uploadLoop C san uuid evs body k zw).1 = .done () → Arrived body parts ∧ rest = [])
  | [], k, zw => ⟨[], [], [], ⟨rfl, rfl, fun i x h => by simp at h⟩, List.nil_prefix, rfl, Nat.zero_le _, fun _ => ⟨rfl, rfl⟩⟩
  | none :: ps, k, zw => ⟨[], [], [], ⟨rfl, rfl, fun i x h => by simp at h⟩, List.nil_prefix, rfl, Nat.zero_le _, fun h => (by cases h)⟩
  | some p :: ps, k, zw => by
    obtain ⟨op, h1, h2⟩ := uploadPart_op C (partName san uuid k p) p (evs k) zw
    rw [uploadLoop]
    rcases hu : uploadPart C (partName san uuid k p) p (evs k) zw with ⟨q, zw'⟩
    rw [hu] at h1 h2
    simp only at h1 h2
    have stop : ∀ q' : Packing Unit, q' ≠ .done () → ∃ (parts : List (Option RString × List Bytes)) (ops rest : List Op),
        UploadCalls san uuid k parts ops (runOps C zw ops).1 ∧ (parts.map fun x => some (Part.mk x.1 (x.2.map some))) <+: some p :: ps ∧
        (runOps C zw (ops ++ rest)).2 = zw' ∧ rest.length ≤ 1 ∧ (q' = .done () → Arrived (some p :: ps) parts ∧ rest = []) := by
      intro q' hq
      refine ⟨[], [], [op], ⟨rfl, rfl, fun i x h => by simp at h⟩, List.nil_prefix, ?_, Nat.le_refl _, fun h => absurd h hq⟩
      rw [← h1]
      rfl
    cases q with
    | done u =>
      obtain ⟨bs, g1, g2⟩ := h2 rfl
      obtain ⟨parts, ops, rest, k1, k2, k3, k4, k5⟩ := uploadLoop_ops C san uuid evs ps (k + 1) zw'
      rw [partName_bytes] at g2
      have hp : p = ⟨p.filename, bs.map some⟩ := by rw [← g1]
      have e1 : (runOps C zw (op :: ops)).1 = (runOp C zw op).1 :: (runOps C zw' ops).1 := by rw [runOps, ← h1]
      refine ⟨(p.filename, bs) :: parts, op :: ops, rest, ?_, ?_, ?_, k4, fun h => ?_⟩
      · rw [e1]
        exact uploadCalls_cons g2 k1
      · rw [List.map_cons, ← hp]
        exact List.cons_prefix_cons.2 ⟨rfl, k2⟩
      · rw [List.cons_append, ← k3, runOps, ← h1]
      · obtain ⟨k6, k7⟩ := k5 h
        refine ⟨?_, k7⟩
        unfold Arrived at k6 ⊢
        rw [List.map_cons, ← hp, ← k6]
    | refused => exact stop _ (fun h => by cases h)
    | panic => exact stop _ (fun h => by cases h)
    | running => exact stop _ (fun h => by cases h)

/-! ## With a file that does not fail -/

theorem Own.completed {α : Type} {r : Res α} (h : Own r) : Completed r := fun x hx => ⟨by rintro rfl; exact h _ hx, fun io => by
  rintro rfl; exact h _ hx⟩

theorem streamWrite_takes {C : Codec} (zw : ZipWriter) (st : EntryStream C) (s : EncState C) (hs : st.enc = some s) (hf : s.fin = false)
    (buf : Bytes) (n : Nat) : ∃ zw' st' s', streamWrite zw st buf [.accept n] = (.ok (min n buf.length), zw', st') ∧
      st'.enc = some s' ∧ s'.fin = false := by
  unfold streamWrite
  rw [hs]
  simp only [hf, Bool.false_eq_true, if_false, encWrite]
  exact ⟨_, _, _, rfl, rfl, hf⟩

theorem writeAllBuf_takes {C : Codec} (c : Nat) : ∀ (n : Nat) (zw : ZipWriter) (st : EntryStream C) (s : EncState C) (buf : Bytes),
    st.enc = some s → s.fin = false → buf.length ≤ n → ∃ m zw' st' s',
      writeAllBuf zw st buf (List.replicate n [.accept (c + 1)]) = (.done (List.replicate m [.accept (c + 1)]), zw', st') ∧
      st'.enc = some s' ∧ s'.fin = false ∧ n ≤ m + buf.length
  | 0, zw, st, s, buf, hs, hf, hn => by
    have hb : buf.length = 0 := by omega
    exact ⟨0, zw, st, s, by rw [List.replicate_zero, writeAllBuf, if_pos hb], hs, hf, Nat.zero_le _⟩
  | n + 1, zw, st, s, buf, hs, hf, hn => by
    rw [List.replicate_succ, writeAllBuf]
    by_cases hb : buf.length = 0
    · exact ⟨n + 1, zw, st, s, by rw [if_pos hb, List.replicate_succ], hs, hf, by omega⟩
    · obtain ⟨zw', st', s', h1, h2, h3⟩ := streamWrite_takes zw st s hs hf buf (c + 1)
      obtain ⟨k, hk⟩ : ∃ k, min (c + 1) buf.length = k + 1 := ⟨min (c + 1) buf.length - 1, by omega⟩
      rw [hk] at h1
      obtain ⟨m, zw2, st2, s2, k1, k2, k3, k4⟩ := writeAllBuf_takes c n zw' st' s' (buf.drop (k + 1)) h2 h3 (by
        rw [List.length_drop]; omega)
      rw [if_neg hb, h1]
      refine ⟨m, zw2, st2, s2, k1, k2, k3, ?_⟩
      rw [List.length_drop] at k4
      omega

theorem uploadChunks_takes {C : Codec} (c : Nat) : ∀ (bs : List Bytes) (n : Nat) (zw : ZipWriter) (st : EntryStream C) (s : EncState C),
    st.enc = some s → s.fin = false → bs.flatten.length ≤ n →
      (uploadChunks (bs.map some) (List.replicate n [.accept (c + 1)]) zw st).1 = .done ()
  | [], n, zw, st, s, hs, hf, hn => rfl
  | b :: bs, n, zw, st, s, hs, hf, hn => by
    rw [List.flatten_cons, List.length_append] at hn
    obtain ⟨m, zw', st', s', h1, h2, h3, h4⟩ := writeAllBuf_takes c n zw st s b hs hf (by omega)
    rw [List.map_cons, uploadChunks, h1]
    exact uploadChunks_takes c bs m zw' st' s' h2 h3 (by omega)

theorem writes_open : ∀ acts : List StreamAct, (∀ a ∈ acts, ∃ b ev, a = .write b ev) → usesClosed acts = false
  | [], _ => rfl
  | a :: acts, h => by
    obtain ⟨b, ev, rfl⟩ := h a List.mem_cons_self
    exact writes_open acts fun a ha => h a (List.mem_cons_of_mem _ ha)

/-- What the program asks for, as long as the name is not too long. -/
theorem upload_sound {name : Bytes} (hn : name.length ≤ 65481) (evs : List Ev) {acts : List StreamAct} (fin : StreamEnd)
    (ha : ∀ a ∈ acts, ∃ b ev, a = .write b ev) :
    Sound (.stream (ZipEntry.new ⟨.utf8, name, none⟩ .deflate) false evs acts fin) := by
  refine ⟨⟨?_, ?_, ?_⟩, (fun h => by cases h.1), fun h => ?_⟩
  · show name.length ≤ 65535
    omega
  · exact Nat.zero_le _
  · show 0 + name.length + 0 + 54 ≤ 65535
    omega
  · have := h.2.2
    rw [writes_open acts ha] at this
    cases this

theorem runOp_force (C : Codec) (zw : ZipWriter) (op : Op) : (runOp C zw op).2.forceNoZip64 = zw.forceNoZip64 :=
  runOps_force C zw [op]

theorem uploadPart_takes (C : Codec) (c : Nat) (name : RString) (hn : name.bytes.length ≤ 65481) (given : Option RString)
    (bs : List Bytes) (zw : ZipWriter) (hz : zw.forceNoZip64 = false) : ∃ evs : PartEvs, Takes c evs.opening ∧
      (∀ w ∈ evs.writes, Takes c w) ∧ Takes c evs.closing ∧ ∃ zw', uploadPart C name ⟨given, bs.map some⟩ evs zw = (.done (), zw') ∧
      zw'.forceNoZip64 = false := by
  obtain ⟨k, r, zw1, h1, h2⟩ := WCompletes.openStream (c := c) C (ZipEntry.new ⟨.utf8, name.bytes, none⟩ .deflate) false zw
  have h2 := h2 0
  have hr : ∃ st, r = .ok st := by
    cases r with
    | ok st => exact ⟨st, rfl⟩
    | error e =>
      have hs := C52_call C zw hz (.stream (ZipEntry.new ⟨.utf8, name.bytes, none⟩ .deflate) false
        (List.replicate (k + 0) (.accept (c + 1))) [] .abandon) (upload_sound hn _ _ fun a ha => by cases ha)
      rw [runOp_open_error h2] at hs
      cases hs.1 fun x hx => by cases hx; exact Own.completed h1 _ rfl
  obtain ⟨st, rfl⟩ := hr
  obtain ⟨_, _, enc, _, _, o3, _, o5, _⟩ := openStream_ok h2
  have he : st.enc = some ⟨C.start .deflate .default, [], false⟩ := by
    rcases encFromRaw_ok o3 with ⟨_, h | h⟩ | ⟨h, _⟩
    · cases h
    · cases h
    · rw [o5, h]; rfl
  have hc := uploadChunks_takes c bs bs.flatten.length zw1 st _ he rfl (Nat.le_refl _)
  obtain ⟨acts, a1, a2, _⟩ := uploadChunks_acts (bs.map some) (List.replicate bs.flatten.length [.accept (c + 1)]) zw1 st
  rcases hu : uploadChunks (bs.map some) (List.replicate bs.flatten.length [.accept (c + 1)]) zw1 st with ⟨q, zw2, st2⟩
  rw [hu] at hc a1
  obtain rfl : q = .done () := hc
  rcases ha : runActs zw1 st acts with ⟨rs, x⟩
  rw [ha] at a1
  obtain rfl : x = (zw2, st2) := a1
  obtain ⟨k', r', zw3, g1, g2⟩ := WCompletes.closeStream (c := c) st2 zw2
  have g2 := g2 0
  have hop := runOp_close h2 ha g2
  have hr' : r' = .ok () := by
    have hs := C52_call C zw hz (.stream (ZipEntry.new ⟨.utf8, name.bytes, none⟩ .deflate) false
      (List.replicate (k + 0) (.accept (c + 1))) acts (.close (List.replicate (k' + 0) (.accept (c + 1))))) (upload_sound hn _ _ a2)
    rw [hop] at hs
    exact hs.2.2 r' rfl (Own.completed g1)
  subst hr'
  refine ⟨⟨List.replicate (k + 0) (.accept (c + 1)), List.replicate bs.flatten.length [.accept (c + 1)],
    List.replicate (k' + 0) (.accept (c + 1))⟩, fun e he => List.eq_of_mem_replicate he, fun w hw e he => ?_,
    fun e he => List.eq_of_mem_replicate he, zw3, ?_, ?_⟩
  · rw [List.eq_of_mem_replicate hw] at he
    exact List.mem_singleton.1 he
  · unfold uploadPart
    show (match openStream C (ZipEntry.new ⟨.utf8, name.bytes, none⟩ .deflate) false
      ⟨zw, List.replicate (k + 0) (.accept (c + 1))⟩ with | (.error e, s) => _ | (.ok st, s) => _) = _
    rw [h2]
    simp only
    rw [hu]
    simp only
    rw [g2]
    rfl
  · have := runOp_force C zw (.stream (ZipEntry.new ⟨.utf8, name.bytes, none⟩ .deflate) false
      (List.replicate (k + 0) (.accept (c + 1))) acts (.close (List.replicate (k' + 0) (.accept (c + 1)))))
    rw [hop, hz] at this
    exact this

theorem uploadLoop_congr (C : Codec) (san : RString → RString) (uuid : Nat → RString) {evs evs' : Nat → PartEvs} :
    ∀ (body : List (Option Part)) (k : Nat) (zw : ZipWriter), (∀ j, k ≤ j → evs j = evs' j) →
      uploadLoop C san uuid evs body k zw = uploadLoop C san uuid evs' body k zw
  | [], k, zw, h => rfl
  | none :: _, k, zw, h => rfl
  | some p :: ps, k, zw, h => by
    rw [uploadLoop, uploadLoop, h k (Nat.le_refl k)]
    rcases uploadPart C (partName san uuid k p) p (evs' k) zw with ⟨q, zw'⟩
    cases q with
    | done u => exact uploadLoop_congr C san uuid ps (k + 1) zw' fun j hj => h j (by omega)
    | refused => rfl
    | panic => rfl
    | running => rfl

theorem uploadLoop_takes (C : Codec) (c : Nat) (san : RString → RString) (uuid : Nat → RString) :
    ∀ (parts : List (Option RString × List Bytes)) (k : Nat) (zw : ZipWriter), zw.forceNoZip64 = false →
      (∀ (i : Nat) (x : Option RString × List Bytes), parts[i]? = some x → (entryName san (uuid (k + i)) x.1).length ≤ 65481) →
      ∃ evs : Nat → PartEvs, (∀ j, Takes c (evs j).opening ∧ (∀ w ∈ (evs j).writes, Takes c w) ∧ Takes c (evs j).closing) ∧
        ∃ zw', uploadLoop C san uuid evs (parts.map fun x => some ⟨x.1, x.2.map some⟩) k zw = (.done (), zw')
  | [], k, zw, hz, hn => ⟨fun _ => ⟨[], [], []⟩, fun j => ⟨fun e h => (by cases h), fun w h => (by cases h), fun e h => (by cases h)⟩, zw, rfl⟩
  | x :: parts, k, zw, hz, hn => by
    have h0 := hn 0 x rfl
    rw [Nat.add_zero, ← partName_bytes san uuid k ⟨x.1, x.2.map some⟩] at h0
    obtain ⟨pe, h1, h2, h3, zw', h4, h5⟩ := uploadPart_takes C c (partName san uuid k ⟨x.1, x.2.map some⟩) h0 x.1 x.2 zw hz
    obtain ⟨evs, k1, zw2, k2⟩ := uploadLoop_takes C c san uuid parts (k + 1) zw' h5 fun i y hy => by
      rw [show k + 1 + i = k + (i + 1) by omega]
      exact hn (i + 1) y (by simpa using hy)
    refine ⟨fun j => if j = k then pe else evs j, fun j => ?_, zw2, ?_⟩
    · by_cases hj : j = k
      · simp only [hj, if_true]
        exact ⟨h1, h2, h3⟩
      · simp only [hj, if_false]
        exact k1 j
    · rw [List.map_cons, uploadLoop]
      simp only [if_true]
      rw [h4]
      simp only
      rw [uploadLoop_congr C san uuid (evs' := evs) _ _ _ fun j hj => if_neg (by omega), k2]

end AsyncZip
