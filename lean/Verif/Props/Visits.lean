import Verif.Proofs.Visits
import Verif.Props.Entries
import Verif.Props.Names
/-!
# C28: streaming through a written archive
-/

namespace AsyncZip
open Spec Rd

theorem Program.calls {C : Codec} {ops : List Op} {rs : List OpResult} {ls : List Listing} (h : Program C ops rs ls) :
    ∀ l ∈ ls, ∃ op ∈ ops, ∃ r, Asked C op r l := by
  induction h with
  | nil => intro l hl; cases hl
  | listed ha _ ih =>
    intro l hl
    rcases List.mem_cons.1 hl with rfl | hl
    · exact ⟨_, List.mem_cons_self, _, ha⟩
    · obtain ⟨op, h1, h2⟩ := ih l hl
      exact ⟨op, List.mem_cons_of_mem _ h1, h2⟩
  | other _ _ ih =>
    intro l hl
    obtain ⟨op, h1, h2⟩ := ih l hl
    exact ⟨op, List.mem_cons_of_mem _ h1, h2⟩

theorem Asked.storedStream {C : Codec} {op : Op} {r : OpResult} {l : Listing} (h : Asked C op r l) (hs : l.streamed = true)
    (hm : l.entry.compression = .stored) : StoredStream op := by
  cases h with
  | whole => cases hs
  | wholePre => cases hs
  | stream => exact hm
  | streamPre => exact hm

/-- C28. An archive of one or more entries, written by calls of which none was refused, cancelled or abandoned, none streamed
without compression, and whose data is `ds` (precompressed data being what it stands for): a client of the streaming reader that
takes the entries one by one, skipping some, reading others to their end and of others only the beginning, sees all of them, in
order, under their names, with their methods, dates and (unless streamed) checksums and sizes, gets their data, and is then told
that there are no more; however the source answers, unless it fails or is dropped. Where the client asks for the check, the
checksum it was shown must be that of the data; see C68. -/
theorem C28_visits_partial (C : Codec) (hC : Lawful C) (sink sink' : Sink) (zw : ZipWriter) (h : Created sink zw)
    (hs : sink.bytes = []) (ops : List Op) (evs : List Ev) (hc : (runArchive C zw ops evs).2.1 = .ok sink')
    (hfine : ∀ r ∈ (runArchive C zw ops evs).1, Fine r) (hst : ∀ op ∈ ops, ¬ StoredStream op)
    (hown : ∀ op ∈ ops, ∀ f ∈ userFields op, OwnField f) (hsize : sink'.bytes.length < 2 ^ 64)
    (ds : List Bytes) (hds : DataIn C ops (runArchive C zw ops evs).1 ds) (hne : ds ≠ []) (b : Build) :
    ∃ ls es, Program C ops (runArchive C zw ops evs).1 ls ∧ ls.length = ds.length ∧
      List.Forall₂ (fun l e => NextAs l e ∧
        (Constructed l.entry.filename → UnicodeAgrees l.entry → SameText l.entry.filename e.filename)) ls es ∧
      ∀ (vs : List Visit), (∀ v ∈ vs, v.Buffered) → (∀ q ∈ es.zip (vs.zip ds), q.2.1.Confirms q.1 q.2.2) →
        ∀ s : RState, s.data = sink'.bytes → s.pos = 0 →
        Interrupted (visits C b vs s).1 ∨ (visits C b vs s).1 =
          .ok ((es.zip (vs.zip ds)).map fun q => (q.1, q.2.1.sees q.2.2), decide (ds.length < vs.length)) := by
  obtain ⟨out, ps, offs, cd, z, fin⟩ := finished h hs hc (J := False) (Or.inr hfine)
  have hcon := Program.data hC fin.program hds
  rw [List.forall₂_map_left_iff] at hcon
  have hl : ps.length = ds.length := hcon.length_eq
  have hholds : List.Forall₂ (fun (p : Listing × CdEntry) d => Holds C p.1 d) ps ds :=
    hcon.imp fun p d hp => hp.2
  cases hps : ps with
  | nil =>
    rw [hps] at hl
    exact absurd (List.length_eq_zero_iff.1 hl.symm) hne
  | cons p ps' =>
    have hdir := fin.directory
    rw [hps, List.map_cons] at hdir
    obtain ⟨rest, hcd⟩ : ∃ rest, cd = le32 CDH_SIGNATURE ++ rest := by
      cases hdir with
      | cons hx hd => exact ⟨_, by rw [recordBytes, List.append_assoc]⟩
    obtain ⟨es, h1, h2, _⟩ := (Body.chain fin.body).visits (C := C) (b := b) hsize (a := []) (ds := ds)
      (rest := rest ++ endBytes z ps.length cd.length out.length (commentBytes (finalComment none ops)))
      (by rw [fin.bytes, archiveBytes, List.nil_append, ← List.append_assoc (le32 CDH_SIGNATURE), ← hcd]) rfl (fin.own hown)
      (fun p hp hs hm => by
        obtain ⟨op, ho, r, ha⟩ := Program.calls fin.program p.1 (List.mem_map_of_mem hp)
        exact hst op ho (Asked.storedStream ha hs hm)) hholds
    refine ⟨ps.map Prod.fst, es, fin.program, by rw [List.length_map, hl], ?_, fun vs hv hcf s hs hp => ?_⟩
    · rw [List.forall₂_map_left_iff]
      exact h1.imp fun p e hpe => ⟨hpe.1, fun hk hu => by rw [hpe.2]; exact name_kept hk hu⟩
    · rcases h2 vs hv hcf s hs hp with hi | ⟨r, s', h3, h4⟩
      · exact Or.inl hi
      · right
        rw [h3, h4.1, hl]

theorem readUpTo_completes (C : Codec) (chunk : Nat) : ∀ (fuel n : Nat) (er : EntryReader),
    Completes (readUpTo C chunk fuel n er)
  | 0, _, _ => Completes.pure
  | fuel + 1, _, _ => Completes.ite Completes.pure (Completes.bind (read_completes _ _ _) fun _ =>
      Completes.ite Completes.pure (Completes.bind (readUpTo_completes C chunk fuel _ _) fun _ => Completes.pure))

theorem visit_completes (C : Codec) (b : Build) (v : Visit) : Completes (visit C b v) := by
  have hd : ∀ dd : Bool, Completes (if dd then consumeDataDescriptor else pure ()) := fun dd => by
    cases dd
    · exact Completes.pure
    · exact Completes.bind (readExact_completes _) fun _ =>
        Completes.ite (Completes.bind (readExact_completes _) fun _ => Completes.pure) Completes.pure
  have hn : Completes (streamNext b) := Completes.bind (lfh_completes b) fun e => by
    cases e <;> exact Completes.pure
  refine Completes.bind hn fun r => ?_
  cases r with
  | none => exact Completes.pure
  | some r =>
    cases v with
    | skip => exact Completes.bind (Completes.bind (readToEnd_completes _ _ _) fun _ => hd _) fun _ => Completes.pure
    | read k =>
      refine Completes.bind (readToEnd_completes _ _ _) fun x => Completes.bind (Completes.bind (read_completes _ _ _) fun y => ?_)
        fun _ => Completes.pure
      exact Completes.ite (Completes.fail (by simp [OwnFailure])) (hd _)
    | check k =>
      refine Completes.bind (Completes.bind (readToEnd_completes _ _ _) fun x =>
        Completes.ite Completes.pure (Completes.fail (by simp [OwnFailure]))) fun x =>
          Completes.bind (Completes.bind (read_completes _ _ _) fun y => ?_) fun _ => Completes.pure
      exact Completes.ite (Completes.fail (by simp [OwnFailure])) (hd _)
    | part n k =>
      exact Completes.bind (readUpTo_completes _ _ _ _ _) fun x =>
        Completes.bind (Completes.bind (readToEnd_completes _ _ _) fun _ => hd _) fun _ => Completes.pure

theorem visits_completes (C : Codec) (b : Build) : ∀ vs : List Visit, Completes (visits C b vs)
  | [] => Completes.pure
  | v :: vs => Completes.bind (visit_completes C b v) fun x => by
    cases x with
    | none => exact Completes.pure
    | some x => exact Completes.bind (visits_completes C b vs) fun y => Completes.pure

/-- C28, progress: a source that keeps answering, with up to `c + 1` bytes at a time, is not an obstacle: the client of the
streaming reader gets through after finitely many answers, whatever the source holds. -/
theorem C28_completes (C : Codec) (b : Build) (vs : List Visit) (c : Nat) (data : Bytes) (pos : Nat) :
    ∃ k, ∀ n log, ¬ Interrupted (visits C b vs ⟨data, pos, some (List.replicate (k + n) (.chunk c)), log⟩).1 := by
  obtain ⟨k, r, pos', hr, h⟩ := visits_completes C b vs c data pos
  refine ⟨k, fun n log => ?_⟩
  obtain ⟨log', e⟩ := h n log
  rw [e]
  exact hr

theorem Samples.tour_archive :
    (runArchive Samples.markCodec Samples.fresh Samples.tour Samples.eager).1 =
      [.whole (.ok ()), .comment, .stream (.ok ()) [.ok 3, .ok 0] (some (.ok ())), .whole (.ok ())] ∧
    (runArchive Samples.markCodec Samples.fresh Samples.tour Samples.eager).2.1 = .ok ⟨Samples.tourBytes, 1, 0⟩ := by
  decide +kernel

theorem Samples.tour_data : DataIn Samples.markCodec Samples.tour
    [.whole (.ok ()), .comment, .stream (.ok ()) [.ok 3, .ok 0] (some (.ok ())), .whole (.ok ())] [[104, 105], [7, 8, 9], [5]] :=
  .listed rfl (.whole _ _ _ _) (.other rfl (.listed rfl (.stream _ _ _ _ _ _ (Or.inr (by
    intro r hr
    simp only [List.mem_cons, List.not_mem_nil, or_false] at hr
    rcases hr with rfl | rfl <;> exact ⟨_, rfl⟩))) (.listed rfl (.whole _ _ _ _) .nil)))

/-- C28, concretely: look at the first byte of the first, read the second in pieces of two bytes, skip the third, and be told that there are no
more. -/
example (b : Build) : ∃ e1 e2 e3, e2.compression = Compression.deflate ∧ ∀ s : RState, s.data = Samples.tourBytes → s.pos = 0 →
    Interrupted (visits Samples.markCodec b [.part 1 5, .read 2, .skip, .skip, .skip] s).1 ∨
      (visits Samples.markCodec b [.part 1 5, .read 2, .skip, .skip, .skip] s).1 =
        .ok ([(e1, some [104]), (e2, some [7, 8, 9]), (e3, none)], true) := by
  have hr := Samples.tour_archive.1
  obtain ⟨ls, es, h1, h2, h3, h4⟩ := C28_visits_partial Samples.markCodec Samples.markCodec_lawful ⟨[], 0, 0⟩
    ⟨Samples.tourBytes, 1, 0⟩ Samples.fresh .new rfl Samples.tour Samples.eager Samples.tour_archive.2
    (by rw [hr]
        simp only [List.forall_mem_cons]
        exact ⟨Or.inl rfl, trivial, Or.inl rfl, Or.inl rfl, fun _ h => by cases h⟩)
    (by rw [Samples.tour]
        simp only [List.forall_mem_cons]
        exact ⟨id, id, (fun h => by cases h), id, fun _ h => by cases h⟩)
    (by rw [Samples.tour]
        simp only [List.forall_mem_cons]
        exact ⟨(fun _ h => by cases h), (fun _ h => by cases h), (fun _ h => by cases h), (fun _ h => by cases h), fun _ h => by cases h⟩)
    (by decide +kernel) [[104, 105], [7, 8, 9], [5]] (by rw [hr]; exact Samples.tour_data) (by simp) b
  rw [hr] at h1
  cases h1 with
  | other hn _ => exact absurd (Or.inl rfl) hn
  | listed _ h1 =>
  cases h1 with
  | listed ha _ => cases ha
  | other _ h1 =>
  cases h1 with
  | other hn _ => exact absurd (Or.inl rfl) hn
  | listed ha h1 =>
  cases h1 with
  | other hn _ => exact absurd (Or.inl rfl) hn
  | listed _ h1 =>
  cases h1
  cases h3 with
  | @cons _ e1 _ _ _ h3 =>
  cases h3 with
  | @cons _ e2 _ _ g h3 =>
  cases h3 with
  | @cons _ e3 _ _ _ h3 =>
  cases h3
  refine ⟨e1, e2, e3, ?_, fun s hs hp => h4 [.part 1 5, .read 2, .skip, .skip, .skip] ?_ ?_ s hs hp⟩
  · rw [g.1.method]
    cases ha
    rfl
  · simp only [List.forall_mem_cons]
    exact ⟨Nat.succ_pos 4, Nat.succ_pos 1, trivial, trivial, trivial, fun _ h => by cases h⟩
  · simp only [List.zip_cons_cons, List.zip_nil_right, List.forall_mem_cons]
    exact ⟨(fun _ h => by cases h), (fun _ h => by cases h), (fun _ h => by cases h), fun _ h => by cases h⟩

theorem visits_of_next {C : Codec} {b : Build} {vs : List Visit} (hv : vs ≠ []) {s : RState} {e : Fail}
    (h : Interrupted (streamNext b s).1 ∨ (streamNext b s).1 = .error e) :
    Interrupted (visits C b vs s).1 ∨ (visits C b vs s).1 = .error e := by
  cases vs with
  | nil => exact absurd rfl hv
  | cons v vs =>
    cases hr : streamNext b s with
    | mk r s1 =>
      rw [hr] at h
      cases r with
      | ok x =>
        rcases h with h | h
        · exact absurd h not_interrupted_ok
        · cases h
      | error x =>
        have hx : visits C b (v :: vs) s = (.error x, s1) := by
          unfold visits visit
          exact bind_of_error (bind_of_error hr)
        rw [hx]
        rcases h with h | h
        · exact Or.inl (interrupted_cast h)
        · cases h
          exact Or.inr rfl

/-- C28 does not hold for entries streamed without compression: the writer produces them, the streaming reader refuses them,
and the client gets nothing. -/
theorem C28_stored_stream_fails (b : Build) (vs : List Visit) (hv : vs ≠ []) :
    (runArchive Samples.markCodec Samples.fresh Samples.streamPlain Samples.eager).1 = [.stream (.ok ()) [.ok 3] (some (.ok ()))] ∧
    (runArchive Samples.markCodec Samples.fresh Samples.streamPlain Samples.eager).2.1 = .ok ⟨Samples.plainBytes, 0, 0⟩ ∧
    ∀ s : RState, s.data = Samples.plainBytes → s.pos = 0 → Interrupted (visits Samples.markCodec b vs s).1 ∨
      ∃ m, (visits Samples.markCodec b vs s).1 = .error (.err (.featureNotSupported m)) := by
  refine ⟨by decide +kernel, by decide +kernel, fun s hs hp => ?_⟩
  obtain ⟨data, pos, sched, log⟩ := s
  simp only at hs hp
  subst hs hp
  refine (visits_of_next hv (C31_unsupported b _ (by dsimp only; decide +kernel) (by dsimp only; decide +kernel) .stored
    (by dsimp only; decide +kernel) ?_ (Or.inr ⟨by dsimp only; decide +kernel, rfl⟩))).imp id fun h => ⟨_, h⟩
  refine ⟨_, parse_trim (fs := [zip64Of (some 0) (some 0) none]) ?_ ?_⟩
  · intro f hf
    rw [List.mem_singleton.1 hf]
    simp only [zip64Of, WellFormed]
    decide +kernel
  · dsimp only
    decide +kernel

/-- Nor does it hold for an archive without entries (which C28 excludes): instead of the end, the streaming reader reports the
end record as an unexpected header. -/
theorem C28_empty (b : Build) (vs : List Visit) (hv : vs ≠ []) :
    (runArchive Samples.markCodec Samples.fresh [] Samples.eager).2.1 =
      .ok ⟨[80, 75, 5, 6, 0, 0, 0, 0, 0, 0, 0, 0, 0, 0, 0, 0, 0, 0, 0, 0, 0, 0], 0, 0⟩ ∧
    ∀ s : RState, s.data = [80, 75, 5, 6, 0, 0, 0, 0, 0, 0, 0, 0, 0, 0, 0, 0, 0, 0, 0, 0, 0, 0] → s.pos = 0 →
      Interrupted (visits Samples.markCodec b vs s).1 ∨
      ∃ v : UInt32, v.toNat = 0x06054b50 ∧ (visits Samples.markCodec b vs s).1 = .error (.err (.unexpectedHeaderError v 0x04034b50)) := by
  refine ⟨by decide +kernel, fun s hs hp => ?_⟩
  obtain ⟨data, pos, sched, log⟩ := s
  simp only at hs hp
  subst hs hp
  rcases C31_unknown_signature b ⟨[80, 75, 5, 6, 0, 0, 0, 0, 0, 0, 0, 0, 0, 0, 0, 0, 0, 0, 0, 0, 0, 0], 0, sched, log⟩
    (by dsimp only; decide) (by dsimp only; decide) (by dsimp only; decide) with h | ⟨v, h1, h2⟩
  · exact Or.inl ((visits_of_next hv (Or.inl h) (e := .panic)).elim id fun h' => by
      rcases visits_of_next hv (C := Samples.markCodec) (Or.inl h) (e := .cancelled) with h'' | h''
      · exact h''
      · rw [h''] at h'; cases h')
  · exact (visits_of_next hv (Or.inr h2)).imp id fun h => ⟨v, by rw [h1]; dsimp only; decide, h⟩

end AsyncZip
