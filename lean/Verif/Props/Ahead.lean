import Verif.Proofs.Ahead
import Verif.Props.CutStream
import Verif.Props.Tiling
/-!
# C71: streaming depends on nothing but the bytes ahead, up to where the client gets
-/

namespace AsyncZip
open Spec Rd

/-- C71: two sources that have the same bytes ahead, and answer alike, show a streaming client the same, whatever the bytes,
the codec and the client's plan: the same entries and data, or the same failure. The client gets equally far, and what lies
ahead is then the same again. What was read before, and the position itself, have no influence. -/
theorem C71_ahead (C : Codec) (b : Build) (vs : List Visit) (s t : RState) (h : SameAhead s t) :
    (visits C b vs s).1 = (visits C b vs t).1 ∧ SameAhead (visits C b vs s).2 (visits C b vs t).2 ∧
      ∃ k, (visits C b vs s).2.pos = s.pos + k ∧ (visits C b vs t).2.pos = t.pos + k :=
  visits_ahead C b vs s t h

/-- C71, an archive behind other data (such as a self-extracting program): a client that starts at the archive need not know. -/
theorem C71_behind (C : Codec) (b : Build) (vs : List Visit) (pre x : Bytes) (sched : Option (List RdResp)) (log log' : List RdEvent) :
    (visits C b vs ⟨pre ++ x, pre.length, sched, log⟩).1 = (visits C b vs ⟨x, 0, sched, log'⟩).1 :=
  (C71_ahead C b vs ⟨pre ++ x, pre.length, sched, log⟩ ⟨x, 0, sched, log'⟩ ⟨by rw [List.drop_left, List.drop_zero], rfl⟩).1

/-- What the ideal source shows of a beginning of the file is what every source shows that has it ahead. -/
theorem visits_here {C : Codec} (hC : FrontToBack C) {b : Build} {vs : List Visit} (hv : ∀ v ∈ vs, v.Buffered) {data : Bytes}
    {p : Nat} {x : List (ZipEntry × Option Bytes) × Bool} (h : Runs (visits C b vs) data 0 (.ok x) p) (hp : p < data.length)
    (t : RState) (ht : (t.data.drop t.pos).take p = data.take p) :
    Interrupted (visits C b vs t).1 ∨ (visits C b vs t).1 = .ok x := by
  have h1 := visits_local hC b vs hv data (t.data.drop t.pos) 0 x p h (Or.inl hp) fun q _ hq => by
    have e : ((t.data.drop t.pos).take p)[q]? = (data.take p)[q]? := by rw [ht]
    rw [List.getElem?_take_of_lt hq, List.getElem?_take_of_lt hq] at e
    exact e
  obtain ⟨l, e⟩ := h1 []
  refine (visits_as_ideal hv t []).imp id fun g => ?_
  rw [g, (C71_ahead C b vs ⟨t.data, t.pos, none, []⟩ ⟨t.data.drop t.pos, 0, none, []⟩ ⟨by rw [List.drop_zero], rfl⟩).1, e]

/-- C71, up to where the client gets: if a client got what it wanted and did not use up the file, then every source that has the
same bytes ahead as far as the client got gives it the same; whatever follows, or nothing, and however it answers, unless it
fails or is dropped. -/
theorem C71_up_to (C : Codec) (hC : FrontToBack C) (b : Build) (vs : List Visit) (hv : ∀ v ∈ vs, v.Buffered) (s s' t : RState)
    (x : List (ZipEntry × Option Bytes) × Bool) (h : visits C b vs s = (.ok x, s')) (hp : s'.pos < s.data.length)
    (ht : window t.data t.pos (s'.pos - s.pos) = window s.data s.pos (s'.pos - s.pos)) :
    Interrupted (visits C b vs t).1 ∨ (visits C b vs t).1 = .ok x := by
  have hle : s.pos ≤ s'.pos := by
    obtain ⟨_, _, k, h1, _⟩ := C71_ahead C b vs s s ⟨rfl, rfl⟩
    rw [h] at h1
    simp only at h1
    omega
  obtain ⟨l, e⟩ := visits_ideal hC hv h []
  obtain ⟨h1, _, k, h2, h3⟩ := C71_ahead C b vs ⟨s.data, s.pos, none, []⟩ ⟨s.data.drop s.pos, 0, none, []⟩ ⟨by rw [List.drop_zero], rfl⟩
  rw [e] at h1 h2
  simp only at h1 h2 h3
  rcases (visits_total hC b vs hv).total (s.data.drop s.pos) 0 with ⟨y, p, g, _⟩ | g
  · obtain ⟨l', e'⟩ := g []
    rw [e'] at h1 h3
    simp only [Except.ok.injEq] at h1 h3
    subst h1
    have hpp : p = s'.pos - s.pos := by omega
    subst hpp
    exact visits_here hC hv g (by rw [List.length_drop]; omega) t ht
  · obtain ⟨y, s1, e'⟩ := g []
    rw [e'] at h1
    cases h1

/-- C71, for archives that the crate wrote (under the conditions of C28): a streaming client needs the entries' records and the
first four bytes of the directory behind them, from which it learns that there are no more. Wherever in whatever file they
stand, the client sees the entries and their data; the rest of the directory, the end records and all that comes before or
after may be anything, or be missing. -/
theorem C71_directory_partial (C : Codec) (hC : Lawful C) (hF : FrontToBack C) (sink sink' : Sink) (zw : ZipWriter)
    (h : Created sink zw) (hs : sink.bytes = []) (ops : List Op) (evs : List Ev) (hc : (runArchive C zw ops evs).2.1 = .ok sink')
    (hfine : ∀ r ∈ (runArchive C zw ops evs).1, Fine r) (hst : ∀ op ∈ ops, ¬ StoredStream op)
    (hown : ∀ op ∈ ops, ∀ f ∈ userFields op, OwnField f) (hsize : sink'.bytes.length < 2 ^ 64)
    (ds : List Bytes) (hds : DataIn C ops (runArchive C zw ops evs).1 ds) (hne : ds ≠ []) (b : Build) :
    ∃ ls es offs dir, Program C ops (runArchive C zw ops evs).1 ls ∧ ls.length = ds.length ∧
      Tiled sink'.bytes True 0 (ls.zip offs) dir ∧ offs.length = ls.length ∧ OccursAt sink'.bytes sigCentral dir ∧
      List.Forall₂ (fun l e => NextAs l e ∧
        (Constructed l.entry.filename → UnicodeAgrees l.entry → SameText l.entry.filename e.filename)) ls es ∧
      ∀ (vs : List Visit), (∀ v ∈ vs, v.Buffered) → (∀ q ∈ es.zip (vs.zip ds), q.2.1.Confirms q.1 q.2.2) →
        ∀ t : RState, window t.data t.pos (dir + 4) = sink'.bytes.take (dir + 4) →
        Interrupted (visits C b vs t).1 ∨ (visits C b vs t).1 =
          .ok ((es.zip (vs.zip ds)).map fun q => (q.1, q.2.1.sees q.2.2), decide (ds.length < vs.length)) := by
  obtain ⟨out, ps, offs, cd, z, fin⟩ := finished h hs hc (J := False) (Or.inr hfine)
  have hcon := Program.data hC fin.program hds
  rw [List.forall₂_map_left_iff] at hcon
  have hl : ps.length = ds.length := hcon.length_eq
  have hholds : List.Forall₂ (fun (p : Listing × CdEntry) d => Holds C p.1 d) ps ds :=
    hcon.imp fun p d hp => hp.2
  have hno := fun p hp => own_noZip64 (fin.own hown p hp)
  have htile := fin.laid.tiled (y := cd ++ endBytes z ps.length cd.length out.length (commentBytes (finalComment none ops))) hno
  have hbytes : sink'.bytes = out ++ (cd ++ endBytes z ps.length cd.length out.length (commentBytes (finalComment none ops))) := fin.bytes
  rw [← hbytes, not_false_eq_true] at htile
  obtain ⟨rest, hcd⟩ : ∃ rest, cd = le32 CDH_SIGNATURE ++ rest := by
    have hdir := fin.directory
    cases hps : ps with
    | nil =>
      rw [hps] at hl
      exact absurd (List.length_eq_zero_iff.1 hl.symm) hne
    | cons p ps' =>
      rw [hps, List.map_cons] at hdir
      cases hdir with
      | cons hx hd => exact ⟨_, by rw [recordBytes, List.append_assoc]⟩
  have hfull : sink'.bytes = [] ++ (out ++ (le32 CDH_SIGNATURE ++
      (rest ++ endBytes z ps.length cd.length out.length (commentBytes (finalComment none ops))))) := by
    rw [fin.bytes, archiveBytes, List.nil_append, ← List.append_assoc (le32 CDH_SIGNATURE), ← hcd]
  obtain ⟨es, h1, h2, _⟩ := (Body.chain fin.body).visits (C := C) (b := b) hsize (a := []) (ds := ds) hfull rfl (fin.own hown)
    (fun p hp hs hm => by
      obtain ⟨op, ho, r, ha⟩ := Program.calls fin.program p.1 (List.mem_map_of_mem hp)
      exact hst op ho (Asked.storedStream ha hs hm)) hholds
  have hlong : out.length + 4 < sink'.bytes.length := by
    rw [hbytes, hcd]
    simp only [List.length_append, le32_length]
    have : 4 ≤ (endBytes z ps.length cd.length out.length (commentBytes (finalComment none ops))).length := by
      unfold endBytes
      simp only [List.length_append, le32_length]
      omega
    rw [hcd, List.length_append, le32_length] at this
    omega
  refine ⟨ps.map Prod.fst, es, offs, out.length, fin.program, by rw [List.length_map, hl], htile,
    by rw [List.length_map, fin.placed.length_eq], ?_, ?_, fun vs hv hcf t ht => ?_⟩
  · have hd : sink'.bytes.drop out.length = le32 CDH_SIGNATURE ++
        (rest ++ endBytes z ps.length cd.length out.length (commentBytes (finalComment none ops))) := by
      rw [hfull, List.nil_append, List.drop_left]
    unfold OccursAt
    rw [hd]
    rfl
  · rw [List.forall₂_map_left_iff]
    exact h1.imp fun p e hpe => ⟨hpe.1, fun hk hu => by rw [hpe.2]; exact name_kept hk hu⟩
  · rcases h2 vs hv hcf ⟨sink'.bytes, 0, none, []⟩ rfl rfl with hi | ⟨r, s', h3, h4, h5⟩
    · exact absurd hi (visits_calm C b vs _ rfl).1
    · rw [← hl, ← h4]
      refine C71_up_to C hF b vs hv _ s' t r h3 (by show s'.pos < sink'.bytes.length; omega) ?_
      have e : ∀ x : Bytes, x.take (s'.pos - 0) = (x.take (out.length + 4)).take (s'.pos - 0) := fun x => by
        rw [List.take_take, Nat.min_eq_left (by omega)]
      show (t.data.drop t.pos).take (s'.pos - 0) = (sink'.bytes.drop 0).take (s'.pos - 0)
      rw [List.drop_zero, e, e sink'.bytes]
      exact congrArg (List.take (s'.pos - 0)) ht

/-- C71, concretely: the first 47 bytes of an archive of one entry, behind three other bytes and followed by another. -/
example (b : Build) (t : RState) (ht : t.data = [1, 2, 3] ++ (Samples.one.take 47 ++ [9])) (hp : t.pos = 3) :
    Interrupted (visits Samples.markCodec b [.read 9, .skip] t).1 ∨
      (visits Samples.markCodec b [.read 9, .skip] t).1 = .ok ([(Samples.oneNext, some [104, 105])], true) := by
  obtain ⟨l, h⟩ := Samples.one_visits b []
  refine C71_up_to Samples.markCodec Samples.markCodec_front b [.read 9, .skip] ?_ ⟨Samples.one, 0, none, []⟩ _ t _ h ?_ ?_
  · simp only [List.forall_mem_cons]
    exact ⟨Nat.succ_pos 8, trivial, fun _ h => by cases h⟩
  · show 47 < Samples.one.length
    decide +kernel
  · rw [ht, hp]
    show window ([1, 2, 3] ++ (Samples.one.take 47 ++ [9])) 3 47 = window Samples.one 0 47
    decide +kernel

/-- C71, concretely: two sources with the same bytes ahead. -/
example : SameAhead ⟨[1, 2, 3, 80, 75], 3, some [.chunk 1], []⟩ ⟨[80, 75], 0, some [.chunk 1], []⟩ := ⟨rfl, rfl⟩

/-- C71, concretely: an archive of three entries, one of them streamed. -/
example (b : Build) : ∃ (e1 e2 e3 : ZipEntry) (dir : Nat), ∀ t : RState,
    window t.data t.pos (dir + 4) = Samples.tourBytes.take (dir + 4) →
    Interrupted (visits Samples.markCodec b [.part 1 5, .read 2, .skip, .skip] t).1 ∨
      (visits Samples.markCodec b [.part 1 5, .read 2, .skip, .skip] t).1 =
        .ok ([(e1, some [104]), (e2, some [7, 8, 9]), (e3, none)], true) := by
  have hr := Samples.tour_archive.1
  obtain ⟨ls, es, offs, dir, _, h2, _, _, _, h3, h4⟩ := C71_directory_partial Samples.markCodec Samples.markCodec_lawful
    Samples.markCodec_front ⟨[], 0, 0⟩ ⟨Samples.tourBytes, 1, 0⟩ Samples.fresh .new rfl Samples.tour Samples.eager
    Samples.tour_archive.2
    (by rw [hr]
        simp only [List.forall_mem_cons]
        exact ⟨Or.inl rfl, trivial, Or.inl rfl, Or.inl rfl, fun _ h => by cases h⟩)
    (by rw [Samples.tour]
        simp only [List.forall_mem_cons]
        exact ⟨id, id, (fun h => by cases h), id, fun _ h => by cases h⟩)
    (by rw [Samples.tour]
        simp only [List.forall_mem_cons]
        exact ⟨(fun _ h => by cases h), (fun _ h => by cases h), (fun _ h => by cases h), (fun _ h => by cases h), fun _ h => by cases h⟩)
    (by decide +kernel) [[104, 105], [7, 8, 9], [5]] (by rw [hr]; exact Samples.tour_data) (by simp) b
  have hl := h3.length_eq.symm.trans h2
  match es, hl with
  | [e1, e2, e3], _ =>
    refine ⟨e1, e2, e3, dir, fun t ht => h4 _ ?_ ?_ t ht⟩
    · simp only [List.forall_mem_cons]
      exact ⟨Nat.succ_pos 4, Nat.succ_pos 1, trivial, trivial, fun _ h => by cases h⟩
    · simp only [List.zip_cons_cons, List.forall_mem_cons]
      exact ⟨(fun _ h => by cases h), (fun _ h => by cases h), (fun _ h => by cases h), fun _ h => by cases h⟩

end AsyncZip
