import Verif.Proofs.Reading
/-!
# Opening entries: position of the data, independence of the past, progress
-/

namespace AsyncZip
open Spec Rd

/-- Seeking to an entry's data succeeds only at a local header, and ends where that header says the data starts. -/
theorem seekToDataOffset_ok {e : StoredZipEntry} {s s' : RState} (h : seekToDataOffset e s = (.ok (), s')) :
    OccursAt s.data sigLocal e.fileOffset ∧ e.fileOffset + 30 ≤ s.data.length ∧ s'.data = s.data ∧
      s'.pos = dataStart s.data e.fileOffset := by
  unfold seekToDataOffset at h
  replace h := bind_ok_iff.1 h
  obtain ⟨_, s1, h1, h⟩ := h
  obtain ⟨_, a2, a3⟩ := seekTo_ok h1
  replace h := bind_ok_iff.1 h
  obtain ⟨sg, s2, h2, h⟩ := h
  obtain ⟨b1, b2, b3, b4⟩ := readExact_ok h2
  split at h
  · rename_i hs
    rw [fromLe32_eq_iff b2] at hs
    replace h := bind_ok_iff.1 h
    obtain ⟨hd, s3, h3, h⟩ := h
    replace h3 := bind_ok_iff.1 h3
    obtain ⟨hb, s4, h4, h3⟩ := h3
    obtain ⟨c1, c2, c3, c4⟩ := readExact_ok h4
    simp only [pure_def, Prod.mk.injEq, Except.ok.injEq] at h3
    obtain ⟨rfl, rfl⟩ := h3
    replace h := bind_ok_iff.1 h
    obtain ⟨_, s5, h5, h⟩ := h
    obtain ⟨_, d2, d3⟩ := seekTo_ok h5
    simp only [pure_def, Prod.mk.injEq] at h
    obtain ⟨_, rfl⟩ := h
    rw [b3, b4, a2, a3] at c1
    rw [a2, a3] at b1
    have q1 := read16 (data := s.data) c1 c2 22 (by omega)
    have q2 := read16 (data := s.data) c1 c2 24 (by omega)
    refine ⟨?_, ?_, by rw [d2, c3, b3, a2], ?_⟩
    · unfold OccursAt
      rw [show sigLocal.length = 4 by decide, ← b1, hs]
      decide
    · have := congrArg List.length c1
      rw [List.length_take, List.length_drop, c2] at this
      omega
    · rw [d3, c4, b4, a3, show (LocalFileHeader.ofBytes hb).fileNameLength.toNat = _ from q1,
        show (LocalFileHeader.ofBytes hb).extraFieldLength.toNat = _ from q2, dataStart,
        show e.fileOffset + 4 + 22 = e.fileOffset + 26 by omega, show e.fileOffset + 4 + 24 = e.fileOffset + 28 by omega]
      omega
  · simp at h

/-- A successful opening of entry `i`. -/
theorem readerWithEntry_ok {f : ZipFile} {i : Nat} {s s1 : RState} {er : EntryReader} {e : ZipEntry}
    (h : readerWithEntry f i s = (.ok (er, e), s1)) :
    ∃ se, f.entries[i]? = some se ∧ e = se.entry ∧ er = EntryReader.new e.compression e.compressedSize.toNat ∧
      OccursAt s.data sigLocal se.fileOffset ∧ s1.data = s.data ∧ s1.pos = dataStart s.data se.fileOffset := by
  unfold readerWithEntry at h
  cases hse : f.entries[i]? with
  | none => rw [hse] at h; cases h
  | some se =>
    rw [hse] at h
    simp only at h
    replace h := bind_ok_iff.1 h
    obtain ⟨_, s', h1, h2⟩ := h
    obtain ⟨a1, a2, a3, a4⟩ := seekToDataOffset_ok h1
    simp only [pure_def, Prod.mk.injEq, Except.ok.injEq] at h2
    obtain ⟨⟨rfl, rfl⟩, rfl⟩ := h2
    exact ⟨se, rfl, rfl, rfl, a1, a3, a4⟩

theorem seekToDataOffset_keeps (e : StoredZipEntry) : Keeps (seekToDataOffset e) :=
  Keeps.bind (seekTo_keeps _) fun _ => Keeps.bind (readExact_keeps _) fun _ =>
    Keeps.ite (Keeps.bind (Keeps.bind (readExact_keeps _) fun _ => Keeps.pure) fun _ =>
      Keeps.bind (seekForward_keeps _) fun _ => Keeps.pure) Keeps.fail

theorem readerWithEntry_keeps (f : ZipFile) (i : Nat) : Keeps (readerWithEntry f i) := by
  unfold readerWithEntry
  split
  · exact Keeps.fail
  · exact Keeps.bind (seekToDataOffset_keeps _) fun _ => Keeps.pure

theorem readerWithoutEntry_eq (f : ZipFile) (i : Nat) :
    readerWithoutEntry f i = (do let (er, _) ← readerWithEntry f i; pure er) := by
  unfold readerWithoutEntry readerWithEntry
  funext s
  cases f.entries[i]? with
  | none => rfl
  | some e =>
    simp only [bind_def]
    cases seekToDataOffset e s with
    | mk r s1 => cases r <;> rfl

theorem readerWithEntry_posIndep {f : ZipFile} {i : Nat} (h : i < f.entries.length) :
    PosIndep (readerWithEntry f i) := by
  unfold readerWithEntry
  rw [List.getElem?_eq_getElem h]
  exact PosIndep.bind (seekToDataOffset_posIndep _) fun _ => LogIndep.pure

theorem awaitSched_logIndep (n : Nat) (data : Bytes) (pos : Nat) (sc : Option (List RdResp)) (log log' : List RdEvent)
    (rs : List RdResp) :
    (awaitSched n ⟨data, pos, sc, log⟩ rs).1 = (awaitSched n ⟨data, pos, sc, log'⟩ rs).1 ∧
    (awaitSched n ⟨data, pos, sc, log⟩ rs).2.data = (awaitSched n ⟨data, pos, sc, log'⟩ rs).2.data ∧
    (awaitSched n ⟨data, pos, sc, log⟩ rs).2.pos = (awaitSched n ⟨data, pos, sc, log'⟩ rs).2.pos ∧
    (awaitSched n ⟨data, pos, sc, log⟩ rs).2.sched = (awaitSched n ⟨data, pos, sc, log'⟩ rs).2.sched := by
  induction rs with
  | nil => exact ⟨rfl, rfl, rfl, rfl⟩
  | cons r rs ih =>
    cases r with
    | pending => exact ih
    | _ => exact ⟨rfl, rfl, rfl, rfl⟩

theorem awaitChunk_logIndep (n : Nat) : LogIndep (awaitChunk n) := by
  intro data pos sched log log'
  cases sched with
  | none => exact ⟨rfl, rfl, rfl, rfl⟩
  | some rs => exact awaitSched_logIndep n data pos (some rs) log log' rs

theorem deliver_logIndep (er : EntryReader) (d : DecodeResult) (k : Nat) : LogIndep (er.deliver d k) := by
  intro data pos sched log log'
  unfold EntryReader.deliver
  repeat' split
  all_goals exact ⟨rfl, rfl, rfl, rfl⟩

theorem read_stored_eq {C : Codec} {er : EntryReader} {n : Nat} (h : er.compression = .stored) (hl : er.limit ≠ 0) :
    er.read C n = (readOnce (min n er.limit) >>= fun b =>
      pure (b, { er with limit := er.limit - b.length, hasher := er.hasher.update b })) := by
  funext s
  unfold EntryReader.read
  rw [if_pos h, if_neg hl, bind_def]
  cases readOnce (min n er.limit) s with
  | mk r s1 => cases r <;> rfl

theorem read_comp_eq {C : Codec} {er : EntryReader} {n : Nat} {s : RState} (h : er.compression ≠ .stored) (hn : n ≠ 0) :
    er.read C n s = (awaitChunk n >>= fun k => er.deliver (er.run C s) k) s := by
  unfold EntryReader.read
  rw [if_neg h, if_neg hn, bind_def]
  cases awaitChunk n s with
  | mk r s1 => cases r <;> rfl

theorem read_nil_eq {C : Codec} {er : EntryReader} {n : Nat}
    (h : er.compression = .stored ∧ er.limit = 0 ∨ er.compression ≠ .stored ∧ n = 0) :
    er.read C n = pure ([], er) := by
  funext s
  unfold EntryReader.read
  rcases h with ⟨h1, h2⟩ | ⟨h1, h2⟩
  · rw [if_pos h1, if_pos h2]; rfl
  · rw [if_neg h1, if_pos h2]; rfl

theorem read_logIndep (C : Codec) (er : EntryReader) (n : Nat) : LogIndep (er.read C n) := by
  intro data pos sched log log'
  by_cases hc : er.compression = .stored
  · by_cases hl : er.limit = 0
    · rw [read_nil_eq (Or.inl ⟨hc, hl⟩)]
      exact ⟨rfl, rfl, rfl, rfl⟩
    · rw [read_stored_eq hc hl]
      exact LogIndep.bind (readOnce_logIndep _) (fun _ => LogIndep.pure) data pos sched log log'
  · by_cases hn : n = 0
    · rw [read_nil_eq (Or.inr ⟨hc, hn⟩)]
      exact ⟨rfl, rfl, rfl, rfl⟩
    · rw [read_comp_eq hc hn, read_comp_eq hc hn]
      exact LogIndep.bind (awaitChunk_logIndep _) (fun _ => deliver_logIndep _ _ _) data pos sched log log'

theorem Use.keeps {C : Codec} {er er' : EntryReader} {s s' : RState} {t : List Got} (h : Use C er s t er' s') :
    s'.data = s.data := (use_spec h).1

theorem readLoop_logIndep (C : Codec) (chunk : Nat) : ∀ (m : Nat) (er : EntryReader) (acc : Bytes) (data : Bytes)
    (pos : Nat) (sched : Option (List RdResp)) (log log' : List RdEvent),
    er.remaining C ⟨data, pos, sched, log⟩ = m →
    (er.readLoop C chunk acc ⟨data, pos, sched, log⟩).1 = (er.readLoop C chunk acc ⟨data, pos, sched, log'⟩).1 ∧
    (er.readLoop C chunk acc ⟨data, pos, sched, log⟩).2.data = (er.readLoop C chunk acc ⟨data, pos, sched, log'⟩).2.data ∧
    (er.readLoop C chunk acc ⟨data, pos, sched, log⟩).2.pos = (er.readLoop C chunk acc ⟨data, pos, sched, log'⟩).2.pos ∧
    (er.readLoop C chunk acc ⟨data, pos, sched, log⟩).2.sched
      = (er.readLoop C chunk acc ⟨data, pos, sched, log'⟩).2.sched := by
  intro m
  induction m using Nat.strongRecOn with
  | ind m ih =>
    intro er acc data pos sched log log' hm
    have hl := read_logIndep C er chunk data pos sched log log'
    rw [EntryReader.readLoop.eq_def C chunk er acc ⟨data, pos, sched, log⟩,
      EntryReader.readLoop.eq_def C chunk er acc ⟨data, pos, sched, log'⟩]
    cases hx : er.read C chunk ⟨data, pos, sched, log⟩ with
    | mk r s1 =>
      cases hy : er.read C chunk ⟨data, pos, sched, log'⟩ with
      | mk r' s2 =>
        rw [hx, hy] at hl
        obtain ⟨d1, p1, sc1, l1⟩ := s1
        obtain ⟨d2, p2, sc2, l2⟩ := s2
        simp only at hl
        obtain ⟨rfl, rfl, rfl, rfl⟩ := hl
        cases r with
        | error e => exact ⟨rfl, rfl, rfl, rfl⟩
        | ok x =>
          obtain ⟨b, er'⟩ := x
          simp only
          split
          · exact ⟨rfl, rfl, rfl, rfl⟩
          · rename_i hb
            have hlt := EntryReader.read_remaining_lt hx hb
            exact ih _ (by omega) er' _ _ _ _ _ _ rfl

theorem readToEnd_logIndep (C : Codec) (chunk : Nat) (er : EntryReader) : LogIndep (er.readToEnd C chunk) :=
  fun data pos sched log log' => readLoop_logIndep C chunk _ er [] data pos sched log log' rfl

theorem readPart_logIndep (C : Codec) (chunk : Nat) : ∀ (m : Nat) (er : EntryReader) (acc : Bytes) (data : Bytes)
    (pos : Nat) (sched : Option (List RdResp)) (log log' : List RdEvent),
    er.remaining C ⟨data, pos, sched, log⟩ = m →
    er.readPart C chunk acc ⟨data, pos, sched, log⟩ = er.readPart C chunk acc ⟨data, pos, sched, log'⟩ := by
  intro m
  induction m using Nat.strongRecOn with
  | ind m ih =>
    intro er acc data pos sched log log' hm
    have hl := read_logIndep C er chunk data pos sched log log'
    rw [EntryReader.readPart.eq_def C chunk er acc ⟨data, pos, sched, log⟩,
      EntryReader.readPart.eq_def C chunk er acc ⟨data, pos, sched, log'⟩]
    cases hx : er.read C chunk ⟨data, pos, sched, log⟩ with
    | mk r s1 =>
      cases hy : er.read C chunk ⟨data, pos, sched, log'⟩ with
      | mk r' s2 =>
        rw [hx, hy] at hl
        obtain ⟨d1, p1, sc1, l1⟩ := s1
        obtain ⟨d2, p2, sc2, l2⟩ := s2
        simp only at hl
        obtain ⟨rfl, rfl, rfl, rfl⟩ := hl
        cases r with
        | error e => rfl
        | ok x =>
          obtain ⟨b, er'⟩ := x
          simp only
          split
          · rfl
          · rename_i hb
            have hlt := EntryReader.read_remaining_lt hx hb
            exact ih _ (by omega) er' _ _ _ _ _ _ rfl

/-! ## Progress -/

theorem read_completes (C : Codec) (er : EntryReader) (n : Nat) : Completes (er.read C n) := by
  intro c data pos
  by_cases hc : er.compression = .stored
  · by_cases hl : er.limit = 0
    · rw [read_nil_eq (Or.inl ⟨hc, hl⟩)]
      exact Completes.pure c data pos
    · rw [read_stored_eq hc hl]
      exact Completes.bind (readOnce_completes _) (fun _ => Completes.pure) c data pos
  · by_cases hn : n = 0
    · rw [read_nil_eq (Or.inr ⟨hc, hn⟩)]
      exact Completes.pure c data pos
    · have e : ∀ sc l, er.run C ⟨data, pos, sc, l⟩ = er.run C ⟨data, pos, none, []⟩ := fun _ _ => rfl
      have ea : ∀ m log, awaitChunk n ⟨data, pos, some (List.replicate (1 + m) (.chunk c)), log⟩
          = (.ok (min n (c + 1)), ⟨data, pos, some (List.replicate m (.chunk c)), log⟩) := by
        intro m log
        rw [Nat.add_comm, List.replicate_succ]
        rfl
      cases hd : er.deliver (er.run C ⟨data, pos, none, []⟩) (min n (c + 1)) ⟨data, pos, none, []⟩ with
      | mk r s' =>
        refine ⟨1, r, s'.pos, ?_, fun m log => ⟨log, ?_⟩⟩
        · unfold EntryReader.deliver at hd
          repeat' split at hd
          all_goals
            simp only [Prod.mk.injEq] at hd
            rw [← hd.1]
          · exact not_interrupted_ok
          · exact not_interrupted_own trivial
          · exact not_interrupted_ok
        · rw [read_comp_eq hc hn, bind_of_ok (ea m log), e]
          unfold EntryReader.deliver at hd ⊢
          repeat' split at hd
          all_goals
            simp only [Prod.mk.injEq] at hd
            obtain ⟨rfl, rfl⟩ := hd
            simp only [if_true, if_false, *, RState.advance, Bool.false_eq_true]

theorem readLoop_completes (C : Codec) (chunk : Nat) (c : Nat) (data : Bytes) : ∀ (m : Nat) (er : EntryReader) (acc : Bytes)
    (pos : Nat), er.remaining C ⟨data, pos, none, []⟩ = m →
    ∃ (k : Nat) (r : Res (Bytes × EntryReader)) (pos' : Nat), ¬ Interrupted r ∧
      ∀ (n : Nat) (log : List RdEvent), ∃ log',
        er.readLoop C chunk acc ⟨data, pos, some (List.replicate (k + n) (.chunk c)), log⟩
        = (r, ⟨data, pos', some (List.replicate n (.chunk c)), log'⟩) := by
  intro m
  induction m using Nat.strongRecOn with
  | ind m ih =>
    intro er acc pos hm
    obtain ⟨k, r, p1, hr, h⟩ := read_completes C er chunk c data pos
    cases r with
    | error e =>
      refine ⟨k, .error e, p1, fun hi => hr (interrupted_cast hi), fun n log => ?_⟩
      obtain ⟨l, hl⟩ := h n log
      refine ⟨l, ?_⟩
      rw [EntryReader.readLoop.eq_def, ]
      split
      · rename_i hx; rw [hl] at hx; cases hx
      · rename_i hx; rw [hl] at hx; cases hx; rfl
    | ok x =>
      obtain ⟨b, er'⟩ := x
      by_cases hb : b = []
      · refine ⟨k, .ok (acc, er'), p1, not_interrupted_ok, fun n log => ?_⟩
        obtain ⟨l, hl⟩ := h n log
        refine ⟨l, ?_⟩
        rw [EntryReader.readLoop.eq_def]
        split
        · rename_i hx; rw [hl] at hx; cases hx; rw [dif_pos hb]
        · rename_i hx; rw [hl] at hx; cases hx
      · have hlt : er'.remaining C ⟨data, p1, none, []⟩ < m := by
          obtain ⟨l, hl⟩ := h 0 []
          have := EntryReader.read_remaining_lt hl hb
          rw [← hm]
          exact this
        obtain ⟨k2, r2, p2, hr2, h2⟩ := ih _ hlt er' (acc ++ b) p1 rfl
        refine ⟨k + k2, r2, p2, hr2, fun n log => ?_⟩
        obtain ⟨l, hl⟩ := h (k2 + n) log
        obtain ⟨l2, hl2⟩ := h2 n l
        refine ⟨l2, ?_⟩
        rw [EntryReader.readLoop.eq_def]
        split
        · rename_i hx
          rw [Nat.add_assoc, hl] at hx
          cases hx
          rw [dif_neg hb, hl2]
        · rename_i hx
          rw [Nat.add_assoc, hl] at hx
          cases hx

theorem readToEnd_completes (C : Codec) (chunk : Nat) (er : EntryReader) : Completes (er.readToEnd C chunk) :=
  fun c data pos => readLoop_completes C chunk c data _ er [] pos rfl

end AsyncZip
