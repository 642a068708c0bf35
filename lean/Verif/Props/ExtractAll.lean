import Verif.Proofs.ExtractAll
import Verif.Proofs.Progress
import Verif.Proofs.Unicode
import Verif.Props.Extract
import Verif.Props.Entries
import Verif.Proofs.SampleCodec
import Verif.Props.RoundTrip
/-!
# When extracting an archive succeeds, and that it gives back what was packed

C81 and C82, about `examples/file_extraction.rs`.
-/

namespace AsyncZip
open Spec Rd

/-- C81: on a disk and a source that do not fail, the program comes to its end if and only if the archive opens and all its
entries have UTF-8 names, can be opened and, if they are files, read; every entry has room on the disk; and no file is where
another entry is or has to pass. Room: no file is in the way, and for a file, there is nothing at its place and something is left
of its name after the last slash. -/
theorem C81_completes (b : Build) (C : Codec) {san : Bytes → Bytes} (hs : Sanitizes san) {out : List Bytes}
    (ho : ∀ c ∈ out, PathPart c) (s : RState) (hi : s.sched = none) (fs : FS) (hg : Grown fs) :
    (unzipFile b C san (render out) s ⟨fs, []⟩).1 = true ↔
      ∃ f : ZipFile, (openFile b s).1 = .ok f ∧
        (∀ k e, f.entries[k]? = some e → e.entry.filename.encoding = .utf8 ∧ Room san out fs e.entry.filename.raw ∧
          Fetchable C f s.data k e.entry.filename.raw) ∧
        f.entries.Pairwise fun e e' => Apart san e.entry.filename.raw e'.entry.filename.raw := by
  unfold unzipFile
  have hk := openFile_keeps b s
  cases hf : openFile b s with
  | mk r s1 =>
    rw [hf] at hk
    cases r with
    | error e =>
      refine ⟨fun h => (by cases h), ?_⟩
      rintro ⟨f, h, _⟩
      cases h
    | ok f =>
      have := extractLoop_iff (C := C) hs ho (f := f) f.entries 0 s1 fs (hk.2 hi) hg (by omega)
      rw [show s1.data = s.data from hk.1] at this
      simp only [Nat.zero_add] at this
      show (extractLoop C san (render out) f f.entries 0 s1 ⟨fs, []⟩).1 = true ↔ _
      rw [this]
      constructor
      · exact fun h => ⟨f, rfl, h⟩
      · rintro ⟨f', h, h'⟩
        cases h
        exact h'

/-! ## Back and forth -/

theorem checked_of_plain {C : Codec} {f : ZipFile} {i n : Nat} {s : RState} {c : Bytes} (h : (plainRead C f i n s).1 = .ok c) :
    (checkedRead C f i n s).1 = .ok c ∨ (checkedRead C f i n s).1 = .error (.err .crc32CheckError) := by
  unfold plainRead at h
  rw [readerWithoutEntry_eq] at h
  unfold checkedRead
  cases hr : readerWithEntry f i s with
  | mk r s1 =>
    cases r with
    | error e => rw [bind_of_error (by rw [bind_of_error hr])] at h; cases h
    | ok a =>
      obtain ⟨er, e⟩ := a
      rw [bind_of_ok (by rw [bind_of_ok hr]; rfl)] at h
      rw [bind_of_ok hr]
      cases hx : er.readToEnd C n s1 with
      | mk r' s2 =>
        cases r' with
        | error x => rw [bind_of_error hx] at h; cases h
        | ok a =>
          obtain ⟨b, er'⟩ := a
          rw [bind_of_ok hx] at h
          cases h
          have : er.readToEndChecked C n e.crc32 s1 = (if er'.hasher.finalize = e.crc32 then pure (c, { er' with hasher := Hasher.new })
              else Rd.throwErr .crc32CheckError : Rd _) s2 := by
            unfold EntryReader.readToEndChecked
            rw [bind_of_ok hx]
            rfl
          by_cases hc : er'.hasher.finalize = e.crc32
          · rw [if_pos hc] at this
            left
            show ((er.readToEndChecked C n e.crc32 >>= _) s1).1 = _
            rw [bind_of_ok this]
            rfl
          · rw [if_neg hc] at this
            right
            show ((er.readToEndChecked C n e.crc32 >>= _) s1).1 = _
            rw [bind_of_error this]

theorem plain_of_checked {C : Codec} {f : ZipFile} {i n : Nat} {s : RState} {c : Bytes} (h : (checkedRead C f i n s).1 = .ok c) :
    (∃ er, (readerWithoutEntry f i s).1 = .ok er) ∧ (plainRead C f i n s).1 = .ok c := by
  unfold checkedRead at h
  unfold plainRead
  rw [readerWithoutEntry_eq]
  cases hr : readerWithEntry f i s with
  | mk r s1 =>
    cases r with
    | error e => rw [bind_of_error hr] at h; cases h
    | ok a =>
      obtain ⟨er, e⟩ := a
      rw [bind_of_ok hr] at h
      change ((er.readToEndChecked C n e.crc32 >>= fun x => pure x.1) s1).1 = _ at h
      refine ⟨⟨er, by rw [bind_of_ok hr]; rfl⟩, ?_⟩
      rw [bind_of_ok (by rw [bind_of_ok hr]; rfl)]
      cases hx : er.readToEnd C n s1 with
      | mk r' s2 =>
        cases r' with
        | error x =>
          rw [bind_of_error (show er.readToEndChecked C n e.crc32 s1 = (.error x, s2) by
            unfold EntryReader.readToEndChecked; rw [bind_of_error hx])] at h
          cases h
        | ok a =>
          obtain ⟨b, er'⟩ := a
          rw [bind_of_ok hx]
          have hk : er.readToEndChecked C n e.crc32 s1 = (if er'.hasher.finalize = e.crc32 then pure (b, { er' with hasher := Hasher.new })
              else Rd.throwErr .crc32CheckError : Rd _) s2 := by
            unfold EntryReader.readToEndChecked
            rw [bind_of_ok hx]
            rfl
          by_cases hc : er'.hasher.finalize = e.crc32
          · rw [if_pos hc] at hk
            rw [bind_of_ok hk] at h
            cases h
            rfl
          · rw [if_neg hc] at hk
            rw [bind_of_error hk] at h
            cases h

theorem checkedRead_calm (C : Codec) (f : ZipFile) (i n : Nat) : Calm (checkedRead C f i n) := by
  unfold checkedRead
  refine Calm.bind ?_ fun x => Calm.bind (readToEndChecked_calm C n _ _) fun _ => Calm.pure
  unfold readerWithEntry
  cases f.entries[i]? with
  | none => exact Calm.throwErr fun c h => by cases h
  | some e => exact Calm.bind (Calm.of (seekToDataOffset_chunkIndep e) (seekToDataOffset_completes e) (seekToDataOffset_keeps e)) fun _ => Calm.pure

theorem Packs.nth {C : Codec} {ops : List Op} {rs : List OpResult} {items : List (Bytes × Bytes)} (h : Packs C ops rs items) :
    items.length = rs.countP isListed ∧ ∀ i n d, items[i]? = some (n, d) → ∃ k op r e, ops[k]? = some op ∧ rs[k]? = some r ∧
      isListed r = true ∧ (rs.take k).countP isListed = i ∧ userEntry op = some e ∧ e.filename.asStr = .ok n ∧ n ≠ [] ∧
      Constructed e.filename ∧ UnicodeAgrees e ∧ DataOf C op r d := by
  induction h with
  | nil => exact ⟨rfl, fun i n d h => by simp at h⟩
  | @listed op r e n d ops rs items h he hn hne hc hu hd _ ih =>
    refine ⟨by rw [List.length_cons, ih.1, List.countP_cons_of_pos h], fun i n' d' hi => ?_⟩
    cases i with
    | zero => cases hi; exact ⟨0, op, r, e, rfl, rfl, h, rfl, he, hn, hne, hc, hu, hd⟩
    | succ i =>
      obtain ⟨k, op', r', e', h1, h2, h3, h4, h5⟩ := ih.2 i n' d' hi
      exact ⟨k + 1, op', r', e', h1, h2, h3, by rw [List.take_succ_cons, List.countP_cons_of_pos h, h4], h5⟩
  | @other op r ops rs items h _ ih =>
    refine ⟨by rw [ih.1, List.countP_cons_of_neg (by simp [h])], fun i n' d' hi => ?_⟩
    obtain ⟨k, op', r', e', h1, h2, h3, h4, h5⟩ := ih.2 i n' d' hi
    exact ⟨k + 1, op', r', e', h1, h2, h3, by rw [List.take_succ_cons, List.countP_cons_of_neg (by simp [h]), h4], h5⟩

/-- C82: packing and unpacking. An archive is written by any program, with whole entries and streams, failures and
abandoned entries, so that it says what it means (as for C41 and C42). Extracting it where there is room for the listed
entries and none of their files is in another's way comes to its end, and every listed entry is where it belongs: a directory, or
a file with exactly the data that was packed. -/
theorem C82_packed (C : Codec) (hC : Lawful C) (sink sink' : Sink) (zw : ZipWriter) (h : Created sink zw)
    (hs : sink.bytes = []) (ops : List Op) (evs : List Ev) (hc : (runArchive C zw ops evs).2.1 = .ok sink')
    (hleg : Legible ops (runArchive C zw ops evs).1 (runArchive C zw ops evs).2.2.isZip64 sink'.bytes)
    (hsmall : sink'.bytes.length ≤ 0xFFFFFFFF ∨
      ∀ ls, Program C ops (runArchive C zw ops evs).1 ls → ∀ l ∈ ls, l.us ≠ 0xFFFFFFFF ∧ l.cs ≠ 0xFFFFFFFF)
    (hforce : zw.forceNoZip64 = true → ∀ op ∈ ops, ¬ Exchanged op)
    (items : List (Bytes × Bytes)) (hp : Packs C ops (runArchive C zw ops evs).1 items)
    (b : Build) (hb : items.length ≤ b.maxVecEntries)
    {san : Bytes → Bytes} (hsan : Sanitizes san) {out : List Bytes} (ho : ∀ c ∈ out, PathPart c) (fs : FS) (hg : Grown fs)
    (hr : Rooted fs out) (hroom : ∀ x ∈ items, Room san out fs x.1)
    (hapart : items.Pairwise fun x y => Apart san x.1 y.1) (pos : Nat) (log : List RdEvent) :
    ∃ d', unzipFile b C san (render out) ⟨sink'.bytes, pos, none, log⟩ ⟨fs, []⟩ = (true, d') ∧ Contained out fs d'.fs ∧
      OnlyNew out (items.map fun x => target san x.1) fs d'.fs ∧
      ∀ x ∈ items, d'.fs (out ++ target san x.1) = some (if x.1.getLast? = some 0x2F then .dir else .file x.2) := by
  obtain ⟨hlen, hnth⟩ := Packs.nth hp
  obtain ⟨f, hf, hcount, _, hread⟩ := listed_read hC h hs hc hleg hsmall b (by rw [← hlen]; exact hb)
  have hopen : (openFile b ⟨sink'.bytes, pos, none, log⟩).1 = .ok f := by
    rcases hf ⟨sink'.bytes, pos, none, log⟩ rfl with hi | hi
    · exact absurd hi (Calm.of (openFile_chunkIndep b) (openFile_completes b) (openFile_keeps b) _ rfl).1
    · exact hi
  have hent : ∀ (i : Nat) n d, items[i]? = some (n, d) → ∃ e, f.entries[i]? = some e ∧ e.entry.filename.asStr = .ok n ∧
      ∀ s : RState, s.data = sink'.bytes → Interrupted (checkedRead C f i 8192 s).1 ∨ (checkedRead C f i 8192 s).1 = .ok d := by
    intro i n d hi
    obtain ⟨k, op, r, e, h1, h2, h3, h4, h5, h6, h7, h8, h9, h10⟩ := hnth i n d hi
    obtain ⟨l, off, e', g1, g2, g3, g4, _, _, g5⟩ := hread k op r h1 h2 h3
    rw [h4] at g2 g5
    have hle : l.entry = e := by
      cases g1 <;> (simp only [userEntry, Option.some.injEq] at h5; exact h5)
    refine ⟨e', g2, ?_, fun s hsd => g5 (fun hz => hforce hz op (List.mem_of_getElem? h1)) d h10 8192 (by decide) s hsd⟩
    rw [g4, hle]
    exact (name_kept h8 h9).text n h6 (fun h0 => absurd h0 h7)
  have hname : ∀ (i : Nat) n d (e : StoredZipEntry), items[i]? = some (n, d) → f.entries[i]? = some e →
      e.entry.filename.encoding = .utf8 ∧ e.entry.filename.raw = n := by
    intro i n d e h1 h2
    obtain ⟨e', g1, g2, _⟩ := hent i n d h1
    rw [h2] at g1
    cases g1
    exact asStr_iff.1 g2
  have hitem : ∀ (i : Nat) e, f.entries[i]? = some e → ∃ n d, items[i]? = some (n, d) := by
    intro i e he
    have : i < items.length := by
      rw [hlen, ← hcount]
      exact (List.getElem?_eq_some_iff.1 he).1
    exact ⟨_, _, List.getElem?_eq_getElem this⟩
  have hdone : (unzipFile b C san (render out) ⟨sink'.bytes, pos, none, log⟩ ⟨fs, []⟩).1 = true := by
    refine (C81_completes b C hsan ho ⟨sink'.bytes, pos, none, log⟩ rfl fs hg).2 ⟨f, hopen, fun i e he => ?_, ?_⟩
    · obtain ⟨n, d, hi⟩ := hitem i e he
      obtain ⟨h1, h2⟩ := hname i n d e hi he
      obtain ⟨_, _, _, g3⟩ := hent i n d hi
      refine ⟨h1, by rw [h2]; exact hroom (n, d) (List.mem_of_getElem? hi), ?_⟩
      rcases g3 ⟨sink'.bytes, 0, none, []⟩ rfl with g | g
      · exact absurd g (checkedRead_calm C f i 8192 _ rfl).1
      · obtain ⟨p1, p2⟩ := plain_of_checked g
        exact ⟨p1, fun _ => ⟨d, p2⟩⟩
    · rw [List.pairwise_iff_getElem] at hapart ⊢
      intro i j hi hj hij
      have hi' : i < items.length := by rw [hlen, ← hcount]; exact hi
      have hj' : j < items.length := by rw [hlen, ← hcount]; exact hj
      rw [(hname i _ _ _ (List.getElem?_eq_getElem hi') (List.getElem?_eq_getElem hi)).2,
        (hname j _ _ _ (List.getElem?_eq_getElem hj') (List.getElem?_eq_getElem hj)).2]
      exact hapart i j hi' hj' hij
  obtain ⟨f', names, h1, h2, h3, _, h5⟩ := C80_extracted b C hsan ho ⟨sink'.bytes, pos, none, log⟩ ⟨fs, []⟩ hr hdone
  rw [hopen] at h1
  cases h1
  have hnames : ∀ (i : Nat) n d, items[i]? = some (n, d) → ∃ e, f.entries[i]? = some e ∧ names[i]? = some n ∧
      Extracted C f san out sink'.bytes fs (unzipFile b C san (render out) ⟨sink'.bytes, pos, none, log⟩ ⟨fs, []⟩).2.fs i
        e.entry n := by
    intro i n d hi
    obtain ⟨e, g1, g2, _⟩ := hent i n d hi
    have hil : i < names.length := by rw [h2]; exact (List.getElem?_eq_some_iff.1 g1).1
    have hx := h3 i e _ g1 (List.getElem?_eq_getElem hil)
    have : names[i] = n := by
      have h0 := hx.named
      have h6 := (hname i n d e hi g1).2
      rw [h0] at h6
      exact h6
    rw [this] at hx
    exact ⟨e, g1, by rw [List.getElem?_eq_getElem hil, this], hx⟩
  have hnm : names = items.map Prod.fst := by
    apply List.ext_getElem?
    intro i
    rw [List.getElem?_map]
    cases hi : items[i]? with
    | none =>
      have hl := List.getElem?_eq_none_iff.1 hi
      show names[i]? = none
      rw [List.getElem?_eq_none_iff, h2, hcount, ← hlen]
      exact hl
    | some x =>
      obtain ⟨_, _, hn, _⟩ := hnames i x.1 x.2 hi
      exact hn
  refine ⟨_, Prod.ext hdone rfl, C79_contained b C hsan ho _ ⟨fs, []⟩ hr, ?_, fun x hx => ?_⟩
  · rw [hnm, List.map_map] at h5
    exact h5
  · obtain ⟨i, hi⟩ := List.getElem?_of_mem hx
    obtain ⟨e, _, _, hx⟩ := hnames i x.1 x.2 hi
    by_cases hd : x.1.getLast? = some 0x2F
    · rw [if_pos hd]; exact hx.dir hd
    · rw [if_neg hd]
      obtain ⟨_, c, g1, s, g2, g3⟩ := hx.file hd
      rw [g1]
      obtain ⟨_, _, _, g4⟩ := hent i x.1 x.2 hi
      rcases checked_of_plain g3 with g5 | g5
      · rcases g4 s g2 with g6 | g6
        · rw [g5] at g6; exact absurd g6 not_interrupted_ok
        · rw [g5] at g6; cases g6; rfl
      · rcases g4 s g2 with g6 | g6
        · rw [g5] at g6
          rcases g6 with g6 | ⟨_, g6⟩ <;> cases g6
        · rw [g5] at g6; cases g6

namespace Samples

theorem disk_grown : Grown disk := by
  intro q r hq hr hne
  have hq' : q = [] ∨ q = [[111]] := by
    by_contra h
    exact hq (if_neg h)
  rcases hq' with rfl | rfl
  · rw [List.prefix_nil] at hr; exact absurd hr hne
  · exact disk_rooted r hr

theorem disk_room {name : Bytes} (h : wash (lastPiece name) ≠ []) : Room wash [[111]] disk name where
  clear q c _ := by unfold disk; split <;> simp
  free _ := by
    refine ⟨h, if_neg fun h' => ?_⟩
    have := target_last h
    rcases h' with h' | h'
    · cases h'
    · exact this (List.append_right_eq_self.1 h')

end Samples

/-- C81 on the archive with the entry `../ab`: it is extracted where nothing is called `ab`, and not where there is a file of that
name. -/
example (b : Build) (hb : 1 ≤ b.maxVecEntries) :
    (unzipFile b Samples.markCodec Samples.wash (render [[111]]) ⟨Samples.slip, 0, none, []⟩ ⟨Samples.disk, []⟩).1 = true ∧
    (unzipFile b Samples.markCodec Samples.wash (render [[111]]) ⟨Samples.slip, 0, none, []⟩
      ⟨fun q => if q = [[111], [97, 98]] then some (.file [7]) else Samples.disk q, []⟩).1 ≠ true := by
  constructor
  · rw [Samples.slip_extracted b hb Samples.wash ⟨[[111], [97, 98]], false⟩ (by decide) rfl rfl ⟨⟨[[111]], false⟩, rfl, rfl⟩ rfl]
  · intro h
    obtain ⟨f, h1, h2, _⟩ := (C81_completes b Samples.markCodec Samples.wash_sanitizes Samples.o_plain _ rfl _ (by
      intro q r hq hr hne
      show (if r = _ then _ else _) = _
      by_cases hqf : q = [[111], [97, 98]]
      · rw [if_neg (by rw [← hqf]; exact hne)]
        refine Samples.disk_rooted r ?_
        have := prefix_dropLast (hqf ▸ hr) (hqf ▸ hne)
        exact this
      · have hq : Samples.disk q ≠ none := by
          intro h'
          exact hq ((if_neg hqf).trans h')
        have hd := Samples.disk_grown q r hq hr hne
        rw [if_neg]
        · exact hd
        · rintro rfl
          cases hd)).1 h
    obtain ⟨l, ho⟩ := Samples.slip_opens b hb 0 []
    rw [ho] at h1
    cases h1
    have := ((h2 0 _ rfl).2.1.free (show ([46, 46, 47, 97, 98] : Bytes).getLast? ≠ some 0x2F by decide)).2
    cases this

/-- C82 on the sample program, which packs two entries, abandons a third and fails on a fourth: what it packed is extracted. -/
example (b : Build) (hb : 2 ≤ b.maxVecEntries) : ∃ d',
    unzipFile b Samples.markCodec Samples.wash (render [[111]]) ⟨Samples.programBytes, 0, none, []⟩ ⟨Samples.disk, []⟩ = (true, d') ∧
    d'.fs [[111], [97, 46, 116]] = some (.file [104, 105]) ∧ d'.fs [[111], [98]] = some (.file [7, 8, 9]) ∧
    d'.fs [[97]] = none := by
  have hr := Samples.program_archive.1
  obtain ⟨d', h1, h2, _, h3⟩ := C82_packed Samples.markCodec Samples.markCodec_lawful ⟨[], 0, 0⟩ ⟨Samples.programBytes, 1, 0⟩
    Samples.fresh .new rfl Samples.program Samples.eager Samples.program_archive.2.1 Samples.program_legible
    (Or.inl (by decide +kernel)) (fun h => by cases h) [([97, 46, 116], [104, 105]), ([98], [7, 8, 9])]
    (by
      rw [hr]
      exact .listed (e := Samples.storedEntry) rfl rfl rfl (by decide) (Constructed.new [97, 46, 116] .utf8) ⟨fun i h => (by cases h), fun i h => (by cases h)⟩
          (.whole _ _ _ _) <|
        .other rfl <|
        .listed (e := Samples.deflatedEntry) rfl rfl rfl (by decide) (Constructed.new [98] .utf8) ⟨fun i h => (by cases h), fun i h => (by cases h)⟩
          (.stream _ _ _ _ _ _ (Or.inr Samples.acts_ok)) <|
        .other rfl <| .other rfl .nil)
    b hb Samples.wash_sanitizes Samples.o_plain Samples.disk Samples.disk_grown Samples.disk_rooted
    (by
      intro x hx
      refine Samples.disk_room ?_
      rcases List.mem_cons.1 hx with rfl | hx
      · decide
      · rw [List.mem_singleton] at hx; subst hx; decide)
    (by
      refine List.pairwise_pair.2 ⟨fun _ h => absurd h (by decide), fun _ h => absurd h (by decide)⟩)
    0 []
  exact ⟨d', h1, h3 _ List.mem_cons_self, h3 _ (List.mem_cons_of_mem _ List.mem_cons_self),
    (h2.outside [[97]] (fun h => absurd h.1 (by decide))).trans rfl⟩

end AsyncZip
