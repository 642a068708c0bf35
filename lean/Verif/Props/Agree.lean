import Verif.Spec.Agree
import Verif.Props.Visits
import Verif.Props.Frame
import Verif.Props.Opening
/-!
# C62: the two kinds of reader see the same archive
-/

namespace AsyncZip
open Spec Rd

/-- C62, the part that holds: an archive of this crate's own making looks the same to both kinds of reader, entry by entry:
metadata and data. For programs as in C28 and archives as in C42. -/
theorem C62_agree_partial (C : Codec) (hC : Lawful C) (sink sink' : Sink) (zw : ZipWriter) (h : Created sink zw)
    (hs : sink.bytes = []) (ops : List Op) (evs : List Ev) (hc : (runArchive C zw ops evs).2.1 = .ok sink')
    (hfine : ∀ r ∈ (runArchive C zw ops evs).1, Fine r) (hst : ∀ op ∈ ops, ¬ StoredStream op)
    (hleg : Legible ops (runArchive C zw ops evs).1 (runArchive C zw ops evs).2.2.isZip64 sink'.bytes)
    (hsmall : sink'.bytes.length ≤ 0xFFFFFFFF ∨
      ∀ ls, Program C ops (runArchive C zw ops evs).1 ls → ∀ l ∈ ls, l.us ≠ 0xFFFFFFFF ∧ l.cs ≠ 0xFFFFFFFF)
    (hx : zw.forceNoZip64 = true → ∀ op ∈ ops, ¬ Exchanged op)
    (ds : List Bytes) (hds : DataIn C ops (runArchive C zw ops evs).1 ds) (hne : ds ≠ [])
    (b : Build) (hb : ds.length ≤ b.maxVecEntries) :
    ∃ (f : ZipFile) (es : List ZipEntry), f.entries.length = ds.length ∧
      List.Forall₂ (fun (x : StoredZipEntry) e => SeenAlike x.entry e) f.entries es ∧
      (∀ s : RState, s.data = sink'.bytes → Interrupted (openFile b s).1 ∨ (openFile b s).1 = .ok f) ∧
      (∀ i d, ds[i]? = some d → ∀ chunk, 0 < chunk → ∀ s : RState, s.data = sink'.bytes →
        Interrupted (checkedRead C f i chunk s).1 ∨ (checkedRead C f i chunk s).1 = .ok d) ∧
      ∀ (vs : List Visit), (∀ v ∈ vs, v.Buffered) → (∀ q ∈ es.zip (vs.zip ds), q.2.1.Confirms q.1 q.2.2) →
        ∀ s : RState, s.data = sink'.bytes → s.pos = 0 →
        Interrupted (visits C b vs s).1 ∨ (visits C b vs s).1 =
          .ok ((es.zip (vs.zip ds)).map fun q => (q.1, q.2.1.sees q.2.2), decide (ds.length < vs.length)) := by
  obtain ⟨f', hf', _, hread⟩ := C42_content_partial C hC sink sink' zw h hs ops evs hc hleg hsmall b (by
    rw [← DataIn.count hds]; exact hb)
  obtain ⟨out, ps, offs, cd, z, fin⟩ := finished h hs hc (J := False) (Or.inr hfine)
  have hcon := Program.data hC fin.program hds
  rw [List.forall₂_map_left_iff] at hcon
  have hl : ps.length = ds.length := hcon.length_eq
  have hholds : List.Forall₂ (fun (p : Listing × CdEntry) d => Holds C p.1 d) ps ds :=
    hcon.imp fun p d hp => hp.2
  obtain ⟨f, g1, g2, _, _⟩ := fin.shown (b := b) h hleg (fin.noClash hsmall) (by rw [hl]; exact hb)
  obtain rfl : f = f' := by
    obtain ⟨k, hk⟩ := C17_completes b sink'.bytes 0 0 []
    have e1 := (g1 _ rfl).resolve_left hk
    have e2 := (hf' _ rfl).resolve_left hk
    rw [e1] at e2
    exact Except.ok.inj e2
  cases hps : ps with
  | nil =>
    rw [hps] at hl
    exact absurd (List.length_eq_zero_iff.1 hl.symm) hne
  | cons p ps' =>
    have hdir := fin.directory
    rw [hps, List.map_cons] at hdir
    obtain ⟨rest, hcd⟩ : ∃ rest, cd = le32 CDH_SIGNATURE ++ rest := by
      cases hdir with
      | cons hx hd => exact ⟨_, by rw [recordBytes, List.append_assoc]⟩
    obtain ⟨es, h1, h2, _⟩ := (Body.chain fin.body).visits (C := C) (b := b) hleg.size (a := []) (ds := ds)
      (rest := rest ++ endBytes z ps.length cd.length out.length (commentBytes (finalComment none ops)))
      (by rw [fin.bytes, archiveBytes, List.nil_append, ← List.append_assoc (le32 CDH_SIGNATURE), ← hcd]) rfl (fin.own hleg.own)
      (fun p hp hs hm => by
        obtain ⟨op, ho, r, ha⟩ := Program.calls fin.program p.1 (List.mem_map_of_mem hp)
        exact hst op ho (Asked.storedStream ha hs hm)) hholds
    have hpl : ps.length = offs.length := fin.placed.length_eq
    refine ⟨f, es, ?_, ?_, g1, fun i d hi => ?_, fun vs hv hcf s hs hp => ?_⟩
    · rw [← g2.length_eq, List.length_zip, ← hpl, Nat.min_self, hl]
    · refine List.forall₂_iff_get.2 ⟨?_, fun i hi hi' => ?_⟩
      · rw [← g2.length_eq, List.length_zip, ← hpl, Nat.min_self, h1.length_eq]
      · have hip : i < ps.length := by rw [h1.length_eq]; exact hi'
        have k1 := (List.forall₂_iff_get.1 h1).2 i hip hi'
        have k2 := (List.forall₂_iff_get.1 g2).2 i (by rw [List.length_zip, ← hpl, Nat.min_self]; exact hip) hi
        rw [List.get_eq_getElem, List.getElem_zip] at k2
        have hrec : (ps.get ⟨i, hip⟩).1.streamed = false → (ps.get ⟨i, hip⟩).1.recorded zw.forceNoZip64 =
            ((ps.get ⟨i, hip⟩).1.us, (ps.get ⟨i, hip⟩).1.cs) := fun hf => by
          unfold Listing.recorded
          rw [hf, Bool.and_false]
          rfl
        have hd := k2.readAs.descriptor
        exact ⟨k1.2.trans k2.name.symm, k1.1.method.trans k2.readAs.method.symm, k1.1.date.trans k2.readAs.date.symm,
          k1.1.descriptor.trans hd.symm, fun hf => (k1.1.crc (hd ▸ hf)).trans k2.readAs.crc.symm,
          fun hf => (k1.1.us (hd ▸ hf)).trans (k2.readAs.us.trans (congrArg Prod.fst (hrec (hd ▸ hf)))).symm,
          fun hf => (k1.1.cs (hd ▸ hf)).trans (k2.readAs.cs.trans (congrArg Prod.snd (hrec (hd ▸ hf)))).symm⟩
    · obtain ⟨k, op, r, q1, q2, q3, q4, q5⟩ := DataIn.nth hds hi
      rw [← q5]
      exact hread k op r d q1 q2 q3 q4 fun hf => hx hf op (List.mem_of_getElem? q1)
    · rcases h2 vs hv hcf s hs hp with hi | ⟨r, s', h3, h4⟩
      · exact Or.inl hi
      · right
        rw [h3, h4.1, hl]

namespace Samples

theorem tour_legible : Legible tour (runArchive markCodec fresh tour eager).1
    (runArchive markCodec fresh tour eager).2.2.isZip64 tourBytes where
  own := by
    rw [tour]
    simp only [List.forall_mem_cons]
    exact ⟨(fun _ h => by cases h), (fun _ h => by cases h), (fun _ h => by cases h), (fun _ h => by cases h), fun _ h => by cases h⟩
  comment := by decide +kernel
  last := lastEnd_of_decide (by decide +kernel)
  locator := fun _ => by decide +kernel
  count := by
    rw [tour_archive.1]
    simp only [List.forall_mem_cons]
    exact ⟨(fun h => by cases h), id, (fun h => by cases h), (fun h => by cases h), fun _ h => by cases h⟩
  size := by decide +kernel

/-- `one` with another name and other sizes in the local header. -/
def twofaced : Bytes := [
    80, 75, 3, 4, 20, 0, 0, 0, 0, 0, 131, 24, 34, 80, 172, 42, 147, 216, 1, 0, 0, 0, 1, 0,
    0, 0, 5, 0, 0, 0, 98, 46, 116, 120, 116, 104, 105, 0, 0, 0, 0, 0, 0, 80, 75, 1, 2, 20,
    3, 20, 0, 0, 0, 0, 0, 131, 24, 34, 80, 172, 42, 147, 216, 2, 0, 0, 0, 2, 0, 0, 0, 5,
    0, 6, 0, 2, 0, 0, 0, 0, 0, 0, 0, 164, 1, 0, 0, 0, 0, 97, 46, 116, 120, 116, 153, 119,
    2, 0, 1, 2, 111, 107, 80, 75, 5, 6, 0, 0, 0, 0, 1, 0, 1, 0, 59, 0, 0, 0, 43, 0,
    0, 0, 1, 0, 99]

/-- What the streaming reader makes of it. -/
def twofacedEntry : ZipEntry :=
  { filename := ⟨.utf8, [98, 46, 116, 120, 116], none⟩, compression := .stored, compressionLevel := .default
    crc32 := 3633523372, uncompressedSize := 1, compressedSize := 1, attributeCompatibility := .unix
    lastModificationDate := ⟨20514, 6275⟩, internalFileAttribute := 0, externalFileAttribute := 0
    extraFields := [], comment := ⟨.utf8, [], none⟩, dataDescriptor := false }

end Samples

/-- C62 on a real archive: three entries, the second of them streamed. -/
example (b : Build) (hb : 3 ≤ b.maxVecEntries) : ∃ (f : ZipFile) (es : List ZipEntry), f.entries.length = 3 ∧
    List.Forall₂ (fun (x : StoredZipEntry) e => SeenAlike x.entry e) f.entries es ∧
    (∀ s : RState, s.data = Samples.tourBytes → Interrupted (openFile b s).1 ∨ (openFile b s).1 = .ok f) ∧
    ∀ s : RState, s.data = Samples.tourBytes → Interrupted (checkedRead Samples.markCodec f 1 9 s).1 ∨
      (checkedRead Samples.markCodec f 1 9 s).1 = .ok [7, 8, 9] := by
  have hr := Samples.tour_archive.1
  obtain ⟨f, es, h1, h2, h3, h4, _⟩ := C62_agree_partial Samples.markCodec Samples.markCodec_lawful ⟨[], 0, 0⟩
    ⟨Samples.tourBytes, 1, 0⟩ Samples.fresh .new rfl Samples.tour Samples.eager Samples.tour_archive.2
    (by rw [hr]
        simp only [List.forall_mem_cons]
        exact ⟨Or.inl rfl, trivial, Or.inl rfl, Or.inl rfl, fun _ h => by cases h⟩)
    (by rw [Samples.tour]
        simp only [List.forall_mem_cons]
        exact ⟨id, id, (fun h => by cases h), id, fun _ h => by cases h⟩)
    Samples.tour_legible (Or.inl (by decide +kernel)) (fun h => by cases h) [[104, 105], [7, 8, 9], [5]]
    (by rw [hr]; exact Samples.tour_data) (by simp) b hb
  exact ⟨f, es, h1, h2, h3, fun s hs => h4 1 _ rfl 9 (by decide) s hs⟩

theorem Samples.ready_archive :
    (runArchive Samples.markCodec Samples.fresh Samples.readyMade Samples.eager).1 =
      [.whole (.ok ()), .stream (.ok ()) [.ok 7] (some (.ok ())), .whole (.ok ())] ∧
    (runArchive Samples.markCodec Samples.fresh Samples.readyMade Samples.eager).2.1 = .ok ⟨Samples.readyBytes, 0, 0⟩ := by
  decide +kernel

theorem Samples.ready_legible : Legible Samples.readyMade (runArchive Samples.markCodec Samples.fresh Samples.readyMade Samples.eager).1
    (runArchive Samples.markCodec Samples.fresh Samples.readyMade Samples.eager).2.2.isZip64 Samples.readyBytes where
  own := by
    rw [Samples.readyMade]
    simp only [List.forall_mem_cons]
    exact ⟨(fun _ h => by cases h), (fun _ h => by cases h), (fun _ h => by cases h), fun _ h => by cases h⟩
  comment := by decide +kernel
  last := lastEnd_of_decide (by decide +kernel)
  locator := fun _ => by decide +kernel
  count := by
    rw [Samples.ready_archive.1]
    simp only [List.forall_mem_cons]
    exact ⟨(fun h => by cases h), (fun h => by cases h), (fun h => by cases h), fun _ h => by cases h⟩
  size := by decide +kernel

theorem Samples.ready_stands : StandsFor Samples.markCodec .deflate [1, 7, 1, 8, 1, 9, 0] [7, 8, 9] :=
  Or.inr ⟨(fun h => by cases h), fun rest => by
    cases rest with
    | nil => exact markDecode_data [7, 8, 9] [0]
    | cons x r => exact markDecode_data [7, 8, 9] (0 :: x :: r)⟩

theorem Samples.ready_data : DataIn Samples.markCodec Samples.readyMade
    [.whole (.ok ()), .stream (.ok ()) [.ok 7] (some (.ok ())), .whole (.ok ())] [[7, 8, 9], [7, 8, 9], [5]] :=
  .listed rfl (.wholePre _ _ _ _ _ Samples.ready_stands (by decide +kernel))
    (.listed rfl (.streamPre _ _ _ _ _ _ _ Samples.ready_stands (by decide +kernel)) (.listed rfl (.whole _ _ _ _) .nil))

/-- C28, C42 and C62 with precompressed data: both kinds of reader give back what it stands for. -/
example (b : Build) (hb : 3 ≤ b.maxVecEntries) : ∃ (f : ZipFile) (es : List ZipEntry), f.entries.length = 3 ∧ es.length = 3 ∧
    (∀ s : RState, s.data = Samples.readyBytes → Interrupted (openFile b s).1 ∨ (openFile b s).1 = .ok f) ∧
    (∀ s : RState, s.data = Samples.readyBytes → Interrupted (checkedRead Samples.markCodec f 1 9 s).1 ∨
      (checkedRead Samples.markCodec f 1 9 s).1 = .ok [7, 8, 9]) ∧
    ∀ s : RState, s.data = Samples.readyBytes → s.pos = 0 →
      Interrupted (visits Samples.markCodec b [.read 2, .read 1, .skip, .skip] s).1 ∨
      (visits Samples.markCodec b [.read 2, .read 1, .skip, .skip] s).1 =
        .ok (es.zip [some [7, 8, 9], some [7, 8, 9], none], true) := by
  have hr := Samples.ready_archive.1
  obtain ⟨f, es, h1, h2, h3, h4, h5⟩ := C62_agree_partial Samples.markCodec Samples.markCodec_lawful ⟨[], 0, 0⟩
    ⟨Samples.readyBytes, 0, 0⟩ Samples.fresh .new rfl Samples.readyMade Samples.eager Samples.ready_archive.2
    (by rw [hr]
        simp only [List.forall_mem_cons]
        exact ⟨Or.inl rfl, Or.inl rfl, Or.inl rfl, fun _ h => by cases h⟩)
    (by rw [Samples.readyMade]
        simp only [List.forall_mem_cons]
        exact ⟨id, (fun h => by cases h), id, fun _ h => by cases h⟩)
    Samples.ready_legible (Or.inl (by decide +kernel)) (fun h => by cases h) [[7, 8, 9], [7, 8, 9], [5]]
    (by rw [hr]; exact Samples.ready_data) (by simp) b hb
  have h6 : es.length = 3 := h2.length_eq.symm.trans h1
  refine ⟨f, es, h1, h6, h3, fun s hs => h4 1 _ rfl 9 (by decide) s hs, fun s hs hp => ?_⟩
  match es, h6, h5 with
  | [e1, e2, e3], _, h5 =>
    refine h5 [.read 2, .read 1, .skip, .skip] ?_ ?_ s hs hp
    · simp only [List.forall_mem_cons]
      exact ⟨Nat.succ_pos 1, Nat.succ_pos 0, trivial, trivial, fun _ h => by cases h⟩
    · simp only [List.zip_cons_cons, List.zip_nil_right, List.forall_mem_cons]
      exact ⟨(fun _ h => by cases h), (fun _ h => by cases h), (fun _ h => by cases h), fun _ h => by cases h⟩

/-- C62 does not hold for archives of other origin: nothing compares a local header with the directory. Here one reader
gives an entry "a.txt" with two bytes (and confirms its checksum), the other "b.txt" with one. -/
theorem C62_twofaced_fails : ∃ (f : ZipFile) (x : StoredZipEntry) (e : ZipEntry), f.entries = [x] ∧
    x.entry.filename.basic = [97, 46, 116, 120, 116] ∧ e.filename.basic = [98, 46, 116, 120, 116] ∧
    (∀ (B : Build), 1 ≤ B.maxVecEntries → ∀ s : RState, s.data = Samples.twofaced →
      Interrupted (openFile B s).1 ∨ (openFile B s).1 = .ok f) ∧
    (checkedRead Samples.markCodec f 0 9 ⟨Samples.twofaced, 0, none, []⟩).1 = .ok [104, 105] ∧
    ∀ B : Build, (visits Samples.markCodec B [.read 9] ⟨Samples.twofaced, 0, none, []⟩).1 = .ok ([(e, some [104])], false) := by
  refine ⟨Samples.oneFile, Samples.oneFile.entries[0], Samples.twofacedEntry, rfl, rfl, rfl, fun B hb s hs => ?_, ?_, fun B => ?_⟩
  · by_cases hi : Interrupted (openFile B s).1
    · exact Or.inl hi
    right
    obtain ⟨l, ho⟩ := Samples.one_opens B hb 0 []
    have hsplit : Samples.one.take 43 ++ Samples.one.drop 43 = Samples.one := List.take_append_drop _ _
    rw [← C58_entries_unread B (Samples.one.take 43) (Samples.twofaced.take 43) (Samples.one.drop 43) 102 (by decide +kernel)
      (hsplit ▸ Samples.one_end) (by decide +kernel) (by decide +kernel) (by decide +kernel)
      (fun h => by revert h; decide +kernel) ⟨Samples.one, 0, none, []⟩ s hsplit.symm
      (hs.trans (by decide +kernel)) (by rw [ho]; exact not_interrupted_ok) hi, ho]
  · obtain ⟨l, h1⟩ : ∃ l, seekToDataOffset Samples.oneFile.entries[0] ⟨Samples.twofaced, 0, none, []⟩ =
        (.ok (), ⟨Samples.twofaced, 35, none, l⟩) := by
      have hr : Runs (seekToDataOffset Samples.oneFile.entries[0]) Samples.twofaced 0 (.ok ()) 35 := by
        unfold seekToDataOffset
        refine Runs.bind Runs.seekStart (Runs.bind (Runs.readExact (b := [80, 75, 3, 4]) (by decide +kernel) rfl) ?_)
        refine Runs.bind (a := LocalFileHeader.ofBytes ((Samples.twofaced.drop 4).take 26)) (Runs.bind (Runs.readExact rfl
          (by decide +kernel)) Runs.pure) ?_
        exact Runs.bind Runs.seekForward Runs.pure
      exact hr []
    have h : (EntryReader.new .stored 2).readToEnd Samples.markCodec 9 ⟨Samples.twofaced, 35, none, l⟩
        = (.ok ([104, 105], ⟨.stored, 0, none, Hasher.new.update [104, 105]⟩), ⟨Samples.twofaced, 37, none, l ++ [.read 35 2]⟩) :=
      (readLoop_step rfl (by decide)).trans (readLoop_stop rfl)
    have hk : (EntryReader.new .stored 2).readToEndChecked Samples.markCodec 9 3633523372 ⟨Samples.twofaced, 35, none, l⟩
        = (.ok ([104, 105], ⟨.stored, 0, none, Hasher.new⟩), ⟨Samples.twofaced, 37, none, l ++ [.read 35 2]⟩) := by
      refine (bind_of_ok h).trans ?_
      show (if (Hasher.new.update [104, 105]).finalize = 3633523372 then _ else _ : Rd _) _ = _
      rw [if_pos (by decide +kernel)]
      rfl
    have hr : readerWithEntry Samples.oneFile 0 ⟨Samples.twofaced, 0, none, []⟩ =
        (.ok (EntryReader.new .stored 2, Samples.oneFile.entries[0].entry), ⟨Samples.twofaced, 35, none, l⟩) :=
      (bind_of_ok h1).trans rfl
    unfold checkedRead
    rw [bind_of_ok hr]
    show (((EntryReader.new .stored 2).readToEndChecked Samples.markCodec 9 3633523372 >>= _) _).1 = _
    rw [bind_of_ok hk]
    rfl
  · obtain ⟨p, h1, h2⟩ := Runs.lfhAt (b := B) (data := Samples.twofaced) (pos := 0) (name := [98, 46, 116, 120, 116])
      (xb := []) (hb := (Samples.twofaced.drop 4).take 26) (by decide +kernel) rfl (by decide +kernel)
      (by decide +kernel) (by decide +kernel)
    have ho : lfhOutcome B (LocalFileHeader.ofBytes ((Samples.twofaced.drop 4).take 26)) [98, 46, 116, 120, 116]
        [] = .ok (some Samples.twofacedEntry) := by
      unfold lfhOutcome
      rw [show Compression.tryFrom (LocalFileHeader.ofBytes ((Samples.twofaced.drop 4).take 26)).compression = .ok .stored
        by decide +kernel, noExtra]
      rfl
    have hp := h2 _ ho
    rw [ho] at h1
    subst hp
    have hn : Runs (streamNext B) Samples.twofaced 0 (.ok (some ⟨EntryReader.new .stored 1, Samples.twofacedEntry, false⟩)) 35 :=
      Runs.bind h1 Runs.pure
    obtain ⟨l, hl⟩ := hn []
    have h : (EntryReader.new .stored 1).readToEnd Samples.markCodec 9 ⟨Samples.twofaced, 35, none, l⟩
        = (.ok ([104], ⟨.stored, 0, none, Hasher.new.update [104]⟩), ⟨Samples.twofaced, 36, none, l ++ [.read 35 1]⟩) :=
      (readLoop_step rfl (by decide)).trans (readLoop_stop rfl)
    have hv : visit Samples.markCodec B (.read 9) ⟨Samples.twofaced, 0, none, []⟩ =
        (.ok (some (Samples.twofacedEntry, some [104])), ⟨Samples.twofaced, 36, none, l ++ [.read 35 1]⟩) :=
      (bind_of_ok hl).trans ((bind_of_ok h).trans ((bind_of_ok rfl).trans rfl))
    exact congrArg Prod.fst ((bind_of_ok hv).trans rfl)

end AsyncZip
