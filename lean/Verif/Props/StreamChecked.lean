import Verif.Props.Visits
/-!
# C68: checked reads from a stream
-/

namespace AsyncZip
open Spec Rd

/-- What C28 knows about a plan, and what becomes of a plan with a check that cannot succeed. -/
theorem stream_checks {C : Codec} (hC : Lawful C) {sink sink' : Sink} {zw : ZipWriter} (h : Created sink zw)
    (hs : sink.bytes = []) {ops : List Op} {evs : List Ev} (hc : (runArchive C zw ops evs).2.1 = .ok sink')
    (hfine : ∀ r ∈ (runArchive C zw ops evs).1, Fine r) (hst : ∀ op ∈ ops, ¬ StoredStream op)
    (hown : ∀ op ∈ ops, ∀ f ∈ userFields op, OwnField f) (hsize : sink'.bytes.length < 2 ^ 64)
    {ds : List Bytes} (hds : DataIn C ops (runArchive C zw ops evs).1 ds) (hne : ds ≠ []) (b : Build) :
    ∃ (ls : List Listing) (es : List ZipEntry), Program C ops (runArchive C zw ops evs).1 ls ∧ ls.length = ds.length ∧ es.length = ds.length ∧
      (∀ (i : Nat) (l : Listing) (e : ZipEntry) (d : Bytes), ls[i]? = some l → es[i]? = some e → ds[i]? = some d →
        e.crc32 = if l.streamed then l.entry.crc32 else crc32 d) ∧
      (∀ (vs : List Visit), (∀ v ∈ vs, v.Buffered) → (∀ q ∈ es.zip (vs.zip ds), q.2.1.Confirms q.1 q.2.2) →
        ∀ s : RState, s.data = sink'.bytes → s.pos = 0 → Interrupted (visits C b vs s).1 ∨ (visits C b vs s).1 =
          .ok ((es.zip (vs.zip ds)).map fun q => (q.1, q.2.1.sees q.2.2), decide (ds.length < vs.length))) ∧
      ∀ (vs ws : List Visit) (k : Nat) (e : ZipEntry) (d : Bytes), (∀ v ∈ vs, v.Buffered) →
        (∀ q ∈ es.zip (vs.zip ds), q.2.1.Confirms q.1 q.2.2) → 0 < k → es[vs.length]? = some e → ds[vs.length]? = some d →
        e.crc32 ≠ crc32 d → ∀ s : RState, s.data = sink'.bytes → s.pos = 0 →
          Interrupted (visits C b (vs ++ .check k :: ws) s).1 ∨
            (visits C b (vs ++ .check k :: ws) s).1 = .error (.err .crc32CheckError) := by
  obtain ⟨out, ps, offs, cd, z, fin⟩ := finished h hs hc (J := False) (Or.inr hfine)
  have hcon := Program.data hC fin.program hds
  rw [List.forall₂_map_left_iff] at hcon
  have hl : ps.length = ds.length := hcon.length_eq
  have hholds : List.Forall₂ (fun (p : Listing × CdEntry) d => Holds C p.1 d) ps ds :=
    hcon.imp fun p d hp => hp.2
  cases hps : ps with
  | nil =>
    rw [hps] at hl
    exact absurd (List.length_eq_zero_iff.1 hl.symm) hne
  | cons p ps' =>
    have hdir := fin.directory
    rw [hps, List.map_cons] at hdir
    obtain ⟨rest, hcd⟩ : ∃ rest, cd = le32 CDH_SIGNATURE ++ rest := by
      cases hdir with
      | cons hx hd => exact ⟨_, by rw [recordBytes, List.append_assoc]⟩
    obtain ⟨es, h1, h2, h3⟩ := (Body.chain fin.body).visits (C := C) (b := b) hsize (a := []) (ds := ds)
      (rest := rest ++ endBytes z ps.length cd.length out.length (commentBytes (finalComment none ops)))
      (by rw [fin.bytes, archiveBytes, List.nil_append, ← List.append_assoc (le32 CDH_SIGNATURE), ← hcd]) rfl (fin.own hown)
      (fun p hp hs hm => by
        obtain ⟨op, ho, r, ha⟩ := Program.calls fin.program p.1 (List.mem_map_of_mem hp)
        exact hst op ho (Asked.storedStream ha hs hm)) hholds
    refine ⟨ps.map Prod.fst, es, fin.program, by rw [List.length_map, hl], h1.length_eq.symm.trans hl, ?_,
      fun vs hv hcf s hs hp => ?_, h3⟩
    · intro i l e d hi he hd
      rw [List.getElem?_map, Option.map_eq_some_iff] at hi
      obtain ⟨p, hp, rfl⟩ := hi
      have hi := (List.getElem?_eq_some_iff.1 hp).1
      have k1 := (List.forall₂_iff_get.1 h1).2 i hi (List.getElem?_eq_some_iff.1 he).1
      have k2 := (List.forall₂_iff_get.1 hcon).2 i hi (List.getElem?_eq_some_iff.1 hd).1
      simp only [List.get_eq_getElem, (List.getElem?_eq_some_iff.1 hp).2, (List.getElem?_eq_some_iff.1 he).2,
        (List.getElem?_eq_some_iff.1 hd).2] at k1 k2
      cases hb : p.1.streamed with
      | true => exact k1.1.given hb
      | false => exact (k1.1.crc hb).trans k2.1
    · rcases h2 vs hv hcf s hs hp with hi | ⟨r, s', h3, h4⟩
      · exact Or.inl hi
      · right
        rw [h3, h4.1, hl]

theorem confirms_of {ls : List Listing} {es : List ZipEntry} {vs : List Visit} {ds : List Bytes}
    (hl : ls.length = ds.length)
    (h : ∀ (i : Nat) (l : Listing) (e : ZipEntry) (d : Bytes), ls[i]? = some l → es[i]? = some e → ds[i]? = some d →
      e.crc32 = if l.streamed then l.entry.crc32 else crc32 d)
    (hw : ∀ (i k : Nat) (l : Listing) (d : Bytes), vs[i]? = some (.check k) → ls[i]? = some l → ds[i]? = some d →
      l.streamed = true → l.entry.crc32 = crc32 d) :
    ∀ q ∈ es.zip (vs.zip ds), q.2.1.Confirms q.1 q.2.2 := by
  intro q hq k hk
  obtain ⟨i, hi⟩ := List.mem_iff_getElem?.1 hq
  rw [List.getElem?_zip_eq_some] at hi
  obtain ⟨h1, h2⟩ := hi
  rw [List.getElem?_zip_eq_some] at h2
  have hi : i < ls.length := by
    rw [hl]
    exact (List.getElem?_eq_some_iff.1 h2.2).1
  have := h i ls[i] q.1 q.2.2 (List.getElem?_eq_getElem hi) h1 h2.2
  rw [this]
  split
  · exact hw i k ls[i] q.2.2 (by rw [h2.1, hk]) (List.getElem?_eq_getElem hi) h2.2 ‹_›
  · rfl

/-- C68, the part that holds: reading from a stream with the check. For archives as in C28: a client that skips, reads, reads
with the check or reads the beginnings of entries, as it pleases, gets the data of the entries it checks, and goes on to the
next, provided that they were written whole, or that the checksum of the data was already on the entry that was given to the
streaming writer. -/
theorem C68_checked_partial (C : Codec) (hC : Lawful C) (sink sink' : Sink) (zw : ZipWriter) (h : Created sink zw)
    (hs : sink.bytes = []) (ops : List Op) (evs : List Ev) (hc : (runArchive C zw ops evs).2.1 = .ok sink')
    (hfine : ∀ r ∈ (runArchive C zw ops evs).1, Fine r) (hst : ∀ op ∈ ops, ¬ StoredStream op)
    (hown : ∀ op ∈ ops, ∀ f ∈ userFields op, OwnField f) (hsize : sink'.bytes.length < 2 ^ 64)
    (ds : List Bytes) (hds : DataIn C ops (runArchive C zw ops evs).1 ds) (hne : ds ≠ []) (b : Build) :
    ∃ (ls : List Listing) (es : List ZipEntry), Program C ops (runArchive C zw ops evs).1 ls ∧ ls.length = ds.length ∧ es.length = ds.length ∧
      ∀ (vs : List Visit), (∀ v ∈ vs, v.Buffered) →
        (∀ (i k : Nat) (l : Listing) (d : Bytes), vs[i]? = some (.check k) → ls[i]? = some l → ds[i]? = some d →
          l.streamed = true → l.entry.crc32 = crc32 d) →
        ∀ s : RState, s.data = sink'.bytes → s.pos = 0 → Interrupted (visits C b vs s).1 ∨ (visits C b vs s).1 =
          .ok ((es.zip (vs.zip ds)).map fun q => (q.1, q.2.1.sees q.2.2), decide (ds.length < vs.length)) := by
  obtain ⟨ls, es, h1, h2, h3, h4, h5, _⟩ := stream_checks hC h hs hc hfine hst hown hsize hds hne b
  exact ⟨ls, es, h1, h2, h3, fun vs hv hw => h5 vs hv (confirms_of h2 h4 hw)⟩

/-- C68 does not hold for streamed entries: their checksum follows the data, in the data descriptor, which the reader skips;
it compares with the one in the local header, which is whatever was on the entry given to the writer, zero on a new one. So
the check fails on every such entry of every archive, although nothing is wrong with it. -/
theorem C68_descriptor_fails (C : Codec) (hC : Lawful C) (sink sink' : Sink) (zw : ZipWriter) (h : Created sink zw)
    (hs : sink.bytes = []) (ops : List Op) (evs : List Ev) (hc : (runArchive C zw ops evs).2.1 = .ok sink')
    (hfine : ∀ r ∈ (runArchive C zw ops evs).1, Fine r) (hst : ∀ op ∈ ops, ¬ StoredStream op)
    (hown : ∀ op ∈ ops, ∀ f ∈ userFields op, OwnField f) (hsize : sink'.bytes.length < 2 ^ 64)
    (ds : List Bytes) (hds : DataIn C ops (runArchive C zw ops evs).1 ds) (b : Build) :
    ∃ ls : List Listing, Program C ops (runArchive C zw ops evs).1 ls ∧ ls.length = ds.length ∧
      ∀ (vs ws : List Visit) (k : Nat), (∀ v ∈ vs, v.Buffered) → (∀ k, .check k ∉ vs) → 0 < k →
        ∀ l d, ls[vs.length]? = some l → ds[vs.length]? = some d → l.streamed = true → l.entry.crc32 ≠ crc32 d →
        ∀ s : RState, s.data = sink'.bytes → s.pos = 0 → Interrupted (visits C b (vs ++ .check k :: ws) s).1 ∨
          (visits C b (vs ++ .check k :: ws) s).1 = .error (.err .crc32CheckError) := by
  by_cases hne : ds = []
  · obtain ⟨out, ps, offs, cd, z, fin⟩ := finished h hs hc (J := False) (Or.inr hfine)
    have hcon := Program.data hC fin.program hds
    refine ⟨_, fin.program, hcon.length_eq, fun vs ws k _ _ _ l d _ hd => ?_⟩
    rw [hne] at hd
    simp at hd
  obtain ⟨ls, es, h1, h2, h3, h4, _, h6⟩ := stream_checks hC h hs hc hfine hst hown hsize hds hne b
  refine ⟨ls, h1, h2, fun vs ws k hv hn hk l d hl hd hst hcrc s hs hp => ?_⟩
  have hi : vs.length < es.length := by rw [h3]; exact (List.getElem?_eq_some_iff.1 hd).1
  refine h6 vs ws k es[vs.length] d hv (confirms_of h2 h4 fun i k l d hk => ?_) hk (List.getElem?_eq_getElem hi) hd ?_ s hs hp
  · exact absurd (List.mem_of_getElem? hk) (hn k)
  · rw [h4 vs.length l _ d hl (List.getElem?_eq_getElem hi) hd, if_pos hst]
    exact hcrc

theorem Samples.tour_checks (b : Build) : ∃ ls, Program Samples.markCodec Samples.tour
      [.whole (.ok ()), .comment, .stream (.ok ()) [.ok 3, .ok 0] (some (.ok ())), .whole (.ok ())] ls ∧ ls.length = 3 ∧
    ∀ (vs ws : List Visit) (k : Nat), (∀ v ∈ vs, v.Buffered) → (∀ k, .check k ∉ vs) → 0 < k →
        ∀ l d, ls[vs.length]? = some l → [[104, 105], [7, 8, 9], [5]][vs.length]? = some d → l.streamed = true →
        l.entry.crc32 ≠ crc32 d →
        ∀ s : RState, s.data = Samples.tourBytes → s.pos = 0 → Interrupted (visits Samples.markCodec b (vs ++ .check k :: ws) s).1 ∨
          (visits Samples.markCodec b (vs ++ .check k :: ws) s).1 = .error (.err .crc32CheckError) := by
  have hr := Samples.tour_archive.1
  have := C68_descriptor_fails Samples.markCodec Samples.markCodec_lawful ⟨[], 0, 0⟩
    ⟨Samples.tourBytes, 1, 0⟩ Samples.fresh .new rfl Samples.tour Samples.eager Samples.tour_archive.2
    (by rw [hr]
        simp only [List.forall_mem_cons]
        exact ⟨Or.inl rfl, trivial, Or.inl rfl, Or.inl rfl, fun _ h => by cases h⟩)
    (by rw [Samples.tour]
        simp only [List.forall_mem_cons]
        exact ⟨id, id, (fun h => by cases h), id, fun _ h => by cases h⟩)
    (by rw [Samples.tour]
        simp only [List.forall_mem_cons]
        exact ⟨(fun _ h => by cases h), (fun _ h => by cases h), (fun _ h => by cases h), (fun _ h => by cases h), fun _ h => by cases h⟩)
    (by decide +kernel) [[104, 105], [7, 8, 9], [5]] (by rw [hr]; exact Samples.tour_data) b
  rw [hr] at this
  exact this

/-- C68 on a real archive of three entries, the second of them streamed: checking the first and the third works, checking the
second does not. -/
example (b : Build) : (∃ e1 e2 e3, ∀ s : RState, s.data = Samples.tourBytes → s.pos = 0 →
      Interrupted (visits Samples.markCodec b [.check 5, .read 2, .check 1, .skip] s).1 ∨
        (visits Samples.markCodec b [.check 5, .read 2, .check 1, .skip] s).1 =
          .ok ([(e1, some [104, 105]), (e2, some [7, 8, 9]), (e3, some [5])], true)) ∧
    ∀ s : RState, s.data = Samples.tourBytes → s.pos = 0 →
      Interrupted (visits Samples.markCodec b [.read 5, .check 2, .skip] s).1 ∨
        (visits Samples.markCodec b [.read 5, .check 2, .skip] s).1 = .error (.err .crc32CheckError) := by
  have hr := Samples.tour_archive.1
  constructor
  · obtain ⟨ls, es, h1, h2, h3, h4⟩ := C68_checked_partial Samples.markCodec Samples.markCodec_lawful ⟨[], 0, 0⟩
      ⟨Samples.tourBytes, 1, 0⟩ Samples.fresh .new rfl Samples.tour Samples.eager Samples.tour_archive.2
      (by rw [hr]
          simp only [List.forall_mem_cons]
          exact ⟨Or.inl rfl, trivial, Or.inl rfl, Or.inl rfl, fun _ h => by cases h⟩)
      (by rw [Samples.tour]
          simp only [List.forall_mem_cons]
          exact ⟨id, id, (fun h => by cases h), id, fun _ h => by cases h⟩)
      (by rw [Samples.tour]
          simp only [List.forall_mem_cons]
          exact ⟨(fun _ h => by cases h), (fun _ h => by cases h), (fun _ h => by cases h), (fun _ h => by cases h), fun _ h => by cases h⟩)
      (by decide +kernel) [[104, 105], [7, 8, 9], [5]] (by rw [hr]; exact Samples.tour_data) (by simp) b
    rw [hr] at h1
    match es, h3, h4 with
    | [e1, e2, e3], _, h4 =>
      refine ⟨e1, e2, e3, fun s hs hp => h4 [.check 5, .read 2, .check 1, .skip] ?_ (fun i k l d hi hl _ hst => ?_) s hs hp⟩
      · simp only [List.forall_mem_cons]
        exact ⟨Nat.succ_pos 4, Nat.succ_pos 1, Nat.succ_pos 0, trivial, fun _ h => by cases h⟩
      · cases h1 with
        | other hn _ => exact absurd (Or.inl rfl) hn
        | listed ha1 h1 =>
        cases h1 with
        | listed ha _ => cases ha
        | other _ h1 =>
        cases h1 with
        | other hn _ => exact absurd (Or.inl rfl) hn
        | listed _ h1 =>
        cases h1 with
        | other hn _ => exact absurd (Or.inl rfl) hn
        | listed ha3 h1 =>
        cases h1
        match i, hi, hl with
        | 0, _, hl => cases hl; cases ha1; cases hst
        | 1, hi, _ => cases hi
        | 2, _, hl => cases hl; cases ha3; cases hst
        | 3, hi, _ => cases hi
        | i + 4, hi, _ => simp at hi
  · obtain ⟨ls, h1, h2, h3⟩ := Samples.tour_checks b
    intro s hs hp
    cases h1 with
    | other hn _ => exact absurd (Or.inl rfl) hn
    | listed ha1 h1 =>
    cases h1 with
    | listed ha _ => cases ha
    | other _ h1 =>
    cases h1 with
    | other hn _ => exact absurd (Or.inl rfl) hn
    | listed ha h1 =>
    cases ha
    refine h3 [.read 5] [.skip] 2 ?_ (fun k h => by simp at h) (Nat.succ_pos 1) _ _ rfl rfl rfl ?_ s hs hp
    · simp only [List.forall_mem_cons]
      exact ⟨Nat.succ_pos 4, fun _ h => by cases h⟩
    · show Samples.deflatedEntry.crc32 ≠ crc32 [7, 8, 9]
      decide +kernel

end AsyncZip
