import Verif.Spec.Bounds
import Verif.Props.Visits
import Verif.Props.Opening
import Verif.Props.Agree
/-!
# C63: what a reader returns is bounded by the size of the file
-/

namespace AsyncZip
open Spec Rd

theorem window_fits {data : Bytes} {off n : Nat} (h : off ≤ data.length) : off + (window data off n).length ≤ data.length := by
  simp only [window, List.length_take, List.length_drop]
  omega

theorem Records.bounded {data : Bytes} {off : Nat} {es : List StoredZipEntry} (h : Records data off es) :
    (es.map fun e => inDirectory e.entry).sum ≤ data.length - off := by
  induction h with
  | nil => exact Nat.zero_le _
  | cons off e es h _ ih =>
    rw [List.map_cons, List.sum_cons]
    have h1 := h.fits
    have h2 := congrArg List.length h.name
    have h3 := congrArg List.length h.comment
    have hl : recordLength data off = 46 + fieldAt data (off + 28) 2 + fieldAt data (off + 30) 2 + fieldAt data (off + 32) 2 := rfl
    have hi : inDirectory e.entry = 46 + (window data (off + 46) (fieldAt data (off + 28) 2)).length +
        (window data (off + 46 + fieldAt data (off + 28) 2 + fieldAt data (off + 30) 2) (fieldAt data (off + 32) 2)).length := by
      unfold inDirectory ownBytes
      rw [h2, h3]
    simp only [window, List.length_take, List.length_drop] at hi
    omega

theorem readCombined_keeps (b : Build) (off : Nat) (e : EndOfCentralDirectoryHeader) : Keeps (readCombined b off e) := by
  unfold readCombined
  refine Keeps.ite Keeps.pure (Keeps.bind (seekTo_keeps _) fun _ => Keeps.bind ?_ fun l => ?_)
  · exact Keeps.bind (readExact_keeps _) fun _ => Keeps.ite Keeps.pure (Keeps.bind (readExact_keeps _) fun _ => Keeps.pure)
  · split
    · exact Keeps.bind Keeps.lift fun _ => Keeps.bind (seekTo_keeps _) fun _ =>
        Keeps.bind (Keeps.bind (readExact_keeps _) fun _ => Keeps.pure) fun _ => Keeps.pure
    · exact Keeps.pure

/-- C63, listing: the records, names and comments a listing shows are all there in the file, one after the other, however
large the counts that it declares. In particular it has no more entries than the file has room for records. -/
theorem C63_listing_partial (B : Build) (s s' : RState) (f : ZipFile) (h : openFile B s = (.ok f, s')) :
    (f.entries.map fun e => inDirectory e.entry).sum ≤ s.data.length ∧ 46 * f.entries.length ≤ s.data.length := by
  have key : ∀ es : List StoredZipEntry, 46 * es.length ≤ (es.map fun e => inDirectory e.entry).sum := fun es => by
    induction es with
    | nil => exact Nat.zero_le _
    | cons e es ih =>
      rw [List.length_cons, List.map_cons, List.sum_cons]
      have : 46 ≤ inDirectory e.entry := by unfold inDirectory; omega
      omega
  have h0 : (f.entries.map fun e => inDirectory e.entry).sum ≤ s.data.length := by
    unfold openFile at h
    obtain ⟨off, s1, h1, h⟩ := bind_ok_iff.1 h
    obtain ⟨_, s2, h2, h⟩ := bind_ok_iff.1 h
    obtain ⟨eo, s3, h3, h⟩ := bind_ok_iff.1 h
    obtain ⟨cm, s5, h5, h⟩ := bind_ok_iff.1 h
    obtain ⟨⟨r, z⟩, s7, h7, h⟩ := bind_ok_iff.1 h
    have k1 := (locateEocdr_keeps s).1
    rw [h1] at k1
    have k7 : s7.data = s.data := by
      have k2 := (seekTo_keeps off s1).1
      have e3 : Keeps EndOfCentralDirectoryHeader.fromReader := Keeps.bind (readExact_keeps _) fun _ => Keeps.pure
      have e5 : Keeps (readString eo.fileCommLength.toNat .utf8) := Keeps.bind (readBytes_keeps _) fun _ => Keeps.pure
      have k3 := (e3 s2).1
      have k5 := (e5 s3).1
      have k6 := (readCombined_keeps B off eo s5).1
      rw [show seekTo off s1 = _ from h2] at k2
      rw [h3] at k3
      rw [h5] at k5
      rw [h7] at k6
      exact k6.trans (k5.trans (k3.trans (k2.trans k1)))
    simp only at h
    split at h
    · simp at h
    · obtain ⟨_, s8, h8, h⟩ := bind_ok_iff.1 h
      obtain ⟨_, d2, d3⟩ := seekTo_ok h8
      obtain ⟨es, s9, h9, h⟩ := bind_ok_iff.1 h
      simp only [pure_def, Prod.mk.injEq, Except.ok.injEq] at h
      obtain ⟨rfl, rfl⟩ := h
      unfold cd at h9
      split at h9
      · simp at h9
      · have := Records.bounded (cdLoop_ok _ h9).2
        rw [d2, k7] at this
        simp only
        omega
  exact ⟨h0, Nat.le_trans (key _) h0⟩

theorem lfh_pos {b : Build} {s s' : RState} {e : ZipEntry} (h : lfh b s = (.ok (some e), s')) :
    s'.pos ≤ s.data.length ∧ s.pos + 30 + (ownBytes e.filename).length ≤ s'.pos := by
  obtain ⟨_, ⟨g1, _⟩ | ⟨g1, g2, g3, _⟩⟩ := lfh_ok h
  · cases g1
  obtain ⟨c, fs, _, _, _, _, he⟩ := lfhOutcome_ok g3
  have hname : ownBytes e.filename = window s.data (s.pos + 30) (fieldAt s.data (s.pos + 26) 2) := by
    rw [Option.some.inj he]
    exact basic_filename ..
  have b2 : (window s.data (s.pos + 4) 26).length = 26 := by
    simp only [window, List.length_take, List.length_drop]
    omega
  have q1 := read16 (data := s.data) (b := window s.data (s.pos + 4) 26) rfl b2 22 (by omega)
  have q2 := read16 (data := s.data) (b := window s.data (s.pos + 4) 26) rfl b2 24 (by omega)
  rw [show s.pos + 4 + 22 = s.pos + 26 by omega] at q1
  rw [show s.pos + 4 + 24 = s.pos + 28 by omega] at q2
  obtain ⟨pos', hr, hp⟩ := Runs.lfhAt (b := b) (data := s.data) (pos := s.pos) (hb := window s.data (s.pos + 4) 26)
    (name := window s.data (s.pos + 30) (fieldAt s.data (s.pos + 26) 2))
    (xb := window s.data (s.pos + 30 + (window s.data (s.pos + 30) (fieldAt s.data (s.pos + 26) 2)).length)
      (fieldAt s.data (s.pos + 28) 2))
    (by have := g1; unfold OccursAt at this; rw [show sigLocal.length = 4 from rfl] at this; rw [this]; decide) rfl b2
    (by rw [← q1]; rfl) (by rw [← q2]; rfl)
  have hp := hp _ g3
  rcases Runs.of_chunkIndep (lfh_chunkIndep b) hr s rfl rfl with hi | ⟨_, _, k3⟩
  · rw [h] at hi; exact absurd hi not_interrupted_ok
  · rw [h] at k3
    rw [show s'.pos = pos' from k3, hp, hname]
    have w1 := window_fits (n := fieldAt s.data (s.pos + 26) 2) g2
    exact ⟨window_fits w1, Nat.le_add_right _ _⟩

theorem streamNext_pos {b : Build} {s s' : RState} {r : Reading} (h : streamNext b s = (.ok (some r), s')) :
    s'.pos ≤ s.data.length ∧ s.pos + 30 + (ownBytes r.entry.filename).length ≤ s'.pos := by
  obtain ⟨e, h1, h2⟩ := streamNext_ok h
  cases e with
  | none => cases h2
  | some e =>
    simp only [Option.map_some, Option.some.injEq] at h2
    subst h2
    exact lfh_pos h1

theorem readUpTo_used {C : Codec} {chunk : Nat} : ∀ {fuel n : Nat} {er er' : EntryReader} {s s' : RState} {d : Bytes},
    readUpTo C chunk fuel n er s = (.ok (d, er'), s') → ∃ t, Use C er s t er' s' ∧ delivered t = d
  | 0, n, er, er', s, s', d, h => by
    simp only [readUpTo, pure_def, Prod.mk.injEq, Except.ok.injEq] at h
    obtain ⟨⟨rfl, rfl⟩, rfl⟩ := h
    exact ⟨[], .refl _ _, rfl⟩
  | fuel + 1, n, er, er', s, s', d, h => by
    unfold readUpTo at h
    by_cases h0 : n = 0
    · rw [if_pos h0] at h
      simp only [pure_def, Prod.mk.injEq, Except.ok.injEq] at h
      obtain ⟨⟨rfl, rfl⟩, rfl⟩ := h
      exact ⟨[], .refl _ _, rfl⟩
    rw [if_neg h0] at h
    obtain ⟨x, s1, h1, h⟩ := bind_ok_iff.1 h
    by_cases hb : x.1 = []
    · rw [if_pos hb] at h
      simp only [pure_def, Prod.mk.injEq, Except.ok.injEq] at h
      obtain ⟨⟨rfl, rfl⟩, rfl⟩ := h
      exact ⟨[.read _ x.1], .read h1 (.refl _ _), by rw [delivered, hb]; rfl⟩
    · rw [if_neg hb] at h
      obtain ⟨y, s2, h2, h⟩ := bind_ok_iff.1 h
      simp only [pure_def, Prod.mk.injEq, Except.ok.injEq] at h
      obtain ⟨⟨rfl, rfl⟩, rfl⟩ := h
      obtain ⟨t, h3, h4⟩ := readUpTo_used h2
      exact ⟨.read _ x.1 :: t, .read h1 h3, by rw [delivered, h4]⟩

theorem visit_bounded {C : Codec} {b : Build} {v : Visit} {s s' : RState}
    {x : ZipEntry × Option Bytes} (h : visit C b v s = (.ok (some x), s')) :
    s'.data = s.data ∧ s.pos + inBody x ≤ s'.pos ∧ s.pos + inBody x ≤ s.data.length := by
  unfold visit at h
  obtain ⟨r, s1, h1, h⟩ := bind_ok_iff.1 h
  cases r with
  | none => cases h
  | some r =>
    obtain ⟨p1, p2⟩ := streamNext_pos h1
    have after : ∀ d : Bytes, (r.entry.compression = .stored → d.length ≤
        (entryData C r.entry.compression s.data s1.pos (declaredLength r.entry)).out.length) → ∀ s3 : RState,
        s3.data = s.data → s3.pos = afterEntry C r.entry s.data s1.pos →
        s3.data = s.data ∧ s.pos + inBody (r.entry, some d) ≤ s3.pos ∧ s.pos + inBody (r.entry, some d) ≤ s.data.length := by
      intro d hd s3 k1 k2
      have hpos : s1.pos + (entryData C r.entry.compression s.data s1.pos (declaredLength r.entry)).used ≤ s3.pos := by
        rw [k2]
        unfold afterEntry
        simp only
        split <;> omega
      unfold inBody
      simp only [Option.getD_some]
      refine ⟨k1, ?_⟩
      split
      · rename_i hst
        have hd := hd hst
        unfold entryData at hd hpos
        rw [if_pos hst] at hd hpos
        simp only at hd hpos
        have := window_fits (n := declaredLength r.entry) p1
        omega
      · omega
    cases v with
    | skip =>
      obtain ⟨_, s3, h3, h⟩ := bind_ok_iff.1 h
      simp only [pure_def, Prod.mk.injEq, Except.ok.injEq, Option.some.injEq] at h
      obtain ⟨rfl, rfl⟩ := h
      obtain ⟨k1, k2⟩ := C29_skip C b s s1 s1 s3 r [] r.reader h1 (.refl _ _) h3
      have := after [] (fun _ => Nat.zero_le _) s3 k1 k2
      exact this
    | read k =>
      obtain ⟨⟨d, er⟩, s2, h2, h⟩ := bind_ok_iff.1 h
      obtain ⟨_, s3, h3, h⟩ := bind_ok_iff.1 h
      simp only [pure_def, Prod.mk.injEq, Except.ok.injEq, Option.some.injEq] at h
      obtain ⟨rfl, rfl⟩ := h
      obtain ⟨t, er1, s1', hu, _, hb, hl⟩ := readLoop_use _ r.reader [] s1 rfl _ _ h2
      obtain ⟨k0, _, k1, k2⟩ := C29_done C b s s1 s2 s3 r (t ++ [.read k []]) er h1 (Use.append hu (.read hl (.refl _ _))) h3
      refine after d (fun _ => ?_) s3 k1 k2
      rw [← k0, hb, List.nil_append, delivered_append, List.length_append]
      exact Nat.le_add_right _ _
    | check k =>
      obtain ⟨⟨d, er⟩, s2, h2, h⟩ := bind_ok_iff.1 h
      obtain ⟨_, s3, h3, h⟩ := bind_ok_iff.1 h
      simp only [pure_def, Prod.mk.injEq, Except.ok.injEq, Option.some.injEq] at h
      obtain ⟨rfl, rfl⟩ := h
      unfold EntryReader.readToEndChecked at h2
      obtain ⟨⟨d0, er0⟩, s2', h5, h4⟩ := bind_ok_iff.1 h2
      simp only at h4
      by_cases hh : er0.computeHash.1 = r.entry.crc32
      · rw [if_pos hh] at h4
        simp only [pure_def, Prod.mk.injEq, Except.ok.injEq] at h4
        obtain ⟨⟨rfl, rfl⟩, rfl⟩ := h4
        obtain ⟨t, er1, s1', hu, _, hb, hl⟩ := readLoop_use _ r.reader [] s1 rfl _ _ h5
        obtain ⟨k0, _, k1, k2⟩ := C29_done C b s s1 s2' s3 r (t ++ (.read k [] :: [.hash er0.computeHash.1])) _ h1
          (Use.append hu (.read hl (.hash (.refl _ _)))) h3
        refine after d0 (fun _ => ?_) s3 k1 k2
        rw [← k0, hb, List.nil_append, delivered_append, List.length_append]
        exact Nat.le_add_right _ _
      · rw [if_neg hh] at h4
        cases h4
    | part n k =>
      obtain ⟨⟨d, er⟩, s2, h2, h⟩ := bind_ok_iff.1 h
      obtain ⟨_, s3, h3, h⟩ := bind_ok_iff.1 h
      simp only [pure_def, Prod.mk.injEq, Except.ok.injEq, Option.some.injEq] at h
      obtain ⟨rfl, rfl⟩ := h
      obtain ⟨t, hu, hb⟩ := readUpTo_used h2
      obtain ⟨k1, k2⟩ := C29_skip C b s s1 s2 s3 r t er h1 hu h3
      refine after d (fun _ => ?_) s3 k1 k2
      obtain ⟨_, _, u, _⟩ := use_spec hu
      obtain ⟨_, _, n3, _⟩ := next_facts (C := C) h1
      have hd1 := congrArg List.length u
      rw [List.length_append, hb, n3] at hd1
      omega

/-- C63, streaming: whatever the file, the plan, the codec and the source, the headers, the names and the uncompressed data
that the streaming reader gives to its client are all there in the file, one after the other. In particular it gives no more
entries than the file has room for headers. -/
theorem C63_streaming_partial (C : Codec) (b : Build) (vs : List Visit) (s s' : RState) (xs : List (ZipEntry × Option Bytes))
    (ended : Bool) (h : visits C b vs s = (.ok (xs, ended), s')) :
    (xs.map inBody).sum ≤ s.data.length - s.pos ∧ 30 * xs.length ≤ s.data.length - s.pos := by
  have key : ∀ xs : List (ZipEntry × Option Bytes), 30 * xs.length ≤ (xs.map inBody).sum := fun xs => by
    induction xs with
    | nil => exact Nat.zero_le _
    | cons x xs ih =>
      rw [List.length_cons, List.map_cons, List.sum_cons]
      have : 30 ≤ inBody x := by unfold inBody; omega
      omega
  suffices h0 : (xs.map inBody).sum ≤ s.data.length - s.pos from ⟨h0, Nat.le_trans (key xs) h0⟩
  induction vs generalizing s xs ended with
  | nil =>
    simp only [visits, pure_def, Prod.mk.injEq, Except.ok.injEq] at h
    rw [← h.1.1]
    exact Nat.zero_le _
  | cons v vs ih =>
    unfold visits at h
    obtain ⟨x, s1, h1, h⟩ := bind_ok_iff.1 h
    cases x with
    | none =>
      simp only [pure_def, Prod.mk.injEq, Except.ok.injEq] at h
      rw [← h.1.1]
      exact Nat.zero_le _
    | some x =>
      obtain ⟨⟨ys, en⟩, s2, h2, h⟩ := bind_ok_iff.1 h
      simp only [pure_def, Prod.mk.injEq, Except.ok.injEq] at h
      obtain ⟨⟨rfl, rfl⟩, rfl⟩ := h
      obtain ⟨g1, g2, g3⟩ := visit_bounded h1
      have := ih s1 ys en h2
      rw [g1] at this
      rw [List.map_cons, List.sum_cons]
      omega

namespace Samples

/-- `one` with its directory record twice. -/
def twice : Bytes := [
    80, 75, 3, 4, 20, 0, 0, 0, 0, 0, 131, 24, 34, 80, 172, 42, 147, 216, 2, 0, 0, 0, 2, 0,
    0, 0, 5, 0, 6, 0, 97, 46, 116, 120, 116, 153, 119, 2, 0, 1, 2, 104, 105, 80, 75, 1, 2, 20,
    3, 20, 0, 0, 0, 0, 0, 131, 24, 34, 80, 172, 42, 147, 216, 2, 0, 0, 0, 2, 0, 0, 0, 5,
    0, 6, 0, 2, 0, 0, 0, 0, 0, 0, 0, 164, 1, 0, 0, 0, 0, 97, 46, 116, 120, 116, 153, 119,
    2, 0, 1, 2, 111, 107, 80, 75, 1, 2, 20, 3, 20, 0, 0, 0, 0, 0, 131, 24, 34, 80, 172, 42,
    147, 216, 2, 0, 0, 0, 2, 0, 0, 0, 5, 0, 6, 0, 2, 0, 0, 0, 0, 0, 0, 0, 164, 1,
    0, 0, 0, 0, 97, 46, 116, 120, 116, 153, 119, 2, 0, 1, 2, 111, 107, 80, 75, 5, 6, 0, 0, 0,
    0, 2, 0, 2, 0, 118, 0, 0, 0, 43, 0, 0, 0, 1, 0, 99]

/-- What it lists. -/
def twiceFile : ZipFile := { oneFile with entries := [oneFile.entries[0], oneFile.entries[0]] }

/-- Its end record. -/
def twiceEnd : EndOfCentralDirectoryHeader := { oneEnd with numOfEntriesDisk := 2, numOfEntries := 2, sizeCentDir := 118 }

theorem twice_end : OccursAt twice eocdrSig 161 ∧ ∀ j', OccursAt twice eocdrSig j' → j' ≤ 161 :=
  lastEnd_of_decide (by unfold OccursAt; decide +kernel)

theorem twice_opens (b : Build) (hb : 2 ≤ b.maxVecEntries) (pos : Nat) :
    Runs (openFile b) twice pos (.ok twiceFile) 161 := by
  refine Runs.openFile (re := .ok twiceFile.entries) (comment := [99]) (eo := twiceEnd) twice_end.1 twice_end.2
    (by decide +kernel) (by decide +kernel) (by decide +kernel)
    (fun p => ⟨_, Runs.readCombined_plain (by decide) rfl (by decide +kernel) (by decide +kernel)⟩) rfl rfl
    (Runs.cd hb ?_)
  refine Runs.cdLoop_cons (Runs.cdRecord (hd := oneHeader) (rest := twice.drop 102) (xb := [153, 119, 2, 0, 1, 2])
    (by decide +kernel) rfl rfl rfl rfl (oneExtra b)) ?_
  refine Runs.cdLoop_cons (Runs.cdRecord (hd := oneHeader) (rest := twice.drop 161) (xb := [153, 119, 2, 0, 1, 2])
    (by decide +kernel) rfl rfl rfl rfl (oneExtra b)) Runs.pure

end Samples

/-- C63 does not extend to the data that the other readers give: nothing keeps entries of the directory from sharing it. Here
two entries are the same two bytes of the file and can both be read, with the check of their checksums. -/
theorem C63_shared_fails : ∃ (data : Bytes) (f : ZipFile) (x : StoredZipEntry), f.entries = [x, x] ∧
    (∀ (B : Build), 2 ≤ B.maxVecEntries → ∀ s : RState, s.data = data →
      Interrupted (openFile B s).1 ∨ (openFile B s).1 = .ok f) ∧
    ∀ i < 2, (checkedRead Samples.markCodec f i 9 ⟨data, 0, none, []⟩).1 = .ok [104, 105] := by
  refine ⟨Samples.twice, Samples.twiceFile, Samples.oneFile.entries[0], rfl, fun B hb s hs => ?_, fun i hi => ?_⟩
  · exact ((Samples.twice_opens B hb s.pos).of_chunkIndep (openFile_chunkIndep B) s hs rfl).imp id fun h => h.1
  · obtain ⟨l, h1⟩ : ∃ l, seekToDataOffset Samples.oneFile.entries[0] ⟨Samples.twice, 0, none, []⟩ =
        (.ok (), ⟨Samples.twice, 41, none, l⟩) := by
      have hr : Runs (seekToDataOffset Samples.oneFile.entries[0]) Samples.twice 0 (.ok ()) 41 := by
        unfold seekToDataOffset
        refine Runs.bind Runs.seekStart (Runs.bind (Runs.readExact (b := [80, 75, 3, 4]) (by decide +kernel) rfl) ?_)
        refine Runs.bind (a := LocalFileHeader.ofBytes ((Samples.twice.drop 4).take 26)) (Runs.bind (Runs.readExact rfl
          (by decide +kernel)) Runs.pure) ?_
        exact Runs.bind Runs.seekForward Runs.pure
      exact hr []
    have h : (EntryReader.new .stored 2).readToEnd Samples.markCodec 9 ⟨Samples.twice, 41, none, l⟩
        = (.ok ([104, 105], ⟨.stored, 0, none, Hasher.new.update [104, 105]⟩), ⟨Samples.twice, 43, none, l ++ [.read 41 2]⟩) :=
      (readLoop_step rfl (by decide)).trans (readLoop_stop rfl)
    have hk : (EntryReader.new .stored 2).readToEndChecked Samples.markCodec 9 3633523372 ⟨Samples.twice, 41, none, l⟩
        = (.ok ([104, 105], ⟨.stored, 0, none, Hasher.new⟩), ⟨Samples.twice, 43, none, l ++ [.read 41 2]⟩) := by
      refine (bind_of_ok h).trans ?_
      show (if (Hasher.new.update [104, 105]).finalize = 3633523372 then _ else _ : Rd _) _ = _
      rw [if_pos (by decide +kernel)]
      rfl
    have hr : readerWithEntry Samples.twiceFile i ⟨Samples.twice, 0, none, []⟩ =
        (.ok (EntryReader.new .stored 2, Samples.oneFile.entries[0].entry), ⟨Samples.twice, 41, none, l⟩) := by
      obtain rfl | rfl : i = 0 ∨ i = 1 := by omega
      · exact (bind_of_ok h1).trans rfl
      · exact (bind_of_ok h1).trans rfl
    unfold checkedRead
    rw [bind_of_ok hr]
    show (((EntryReader.new .stored 2).readToEndChecked Samples.markCodec 9 3633523372 >>= _) _).1 = _
    rw [bind_of_ok hk]
    rfl

/-- C63 on real archives: a listing of two entries, with names and comments, within 184 bytes. -/
example : (∃ f s', openFile ⟨true, 2⟩ ⟨Samples.twice, 0, none, []⟩ = (.ok f, s') ∧
    (f.entries.map fun e => inDirectory e.entry).sum = 106) ∧ Samples.twice.length = 184 := by
  obtain ⟨l, h⟩ := Samples.twice_opens ⟨true, 2⟩ (by decide) 0 []
  exact ⟨⟨_, _, h, by decide +kernel⟩, by decide +kernel⟩

/-- And what the streaming reader makes of an archive: a header, a name and a byte of data. -/
example : ∃ xs s', visits Samples.markCodec ⟨true, 2⟩ [.read 9] ⟨Samples.twofaced, 0, none, []⟩ = (.ok (xs, false), s') ∧
    (∃ e : ZipEntry, xs = [(e, some [104])] ∧ 30 ≤ (xs.map inBody).sum) := by
  obtain ⟨_, _, e, _, _, _, _, _, h⟩ := C62_twofaced_fails
  have h := h ⟨true, 2⟩
  cases hr : visits Samples.markCodec ⟨true, 2⟩ [.read 9] ⟨Samples.twofaced, 0, none, []⟩ with
  | mk r s' =>
    rw [hr] at h
    exact ⟨_, s', by rw [show r = _ from h], e, rfl, by
      rw [List.map_cons, List.map_nil, List.sum_cons]; unfold inBody; simp only []; omega⟩

end AsyncZip
