import Verif.Proofs.Extract
import Verif.Proofs.Samples
import Verif.Samples.Programs
import Verif.Spec.RoundTrip
/-!
# Extracting an archive to disk: what the example program does and does not do to it

C79, C80 and C81, about `examples/file_extraction.rs`.
-/

namespace AsyncZip
open Spec Rd

/-- C79, the path: whatever the name of an entry is, with slashes of either kind, drives, `..`, a leading slash or nothing, its
path is the output directory followed by ordinary components, at most as many as the name has pieces. -/
theorem C79_path {san : Bytes → Bytes} (hs : Sanitizes san) {out : List Bytes} (ho : ∀ c ∈ out, PathPart c) (name : Bytes) :
    (OsPath.of (pathPush (render out) (sanitizeFilePath san name))).comps = out ++ target san name ∧
      (∀ c ∈ out ++ target san name, PathPart c) ∧
      (OsPath.of (pathPush (render out) (sanitizeFilePath san name))).resolve = out ++ target san name := by
  obtain ⟨h1, h2⟩ := entry_path hs ho name
  exact ⟨h1, h2, by rw [resolve_plain (by rw [h1]; exact h2), h1]⟩

/-- C79: whatever is in the archive, whatever the source and the operating system do, and whether or not the program comes to
its end: nothing changes on disk but strictly below the output directory, and nothing that was there changes at all. -/
theorem C79_contained (b : Build) (C : Codec) {san : Bytes → Bytes} (hs : Sanitizes san) {out : List Bytes}
    (ho : ∀ c ∈ out, PathPart c) (s : RState) (d : Disk) (hr : Rooted d.fs out) :
    Contained out d.fs (unzipFile b C san (render out) s d).2.fs := by
  unfold unzipFile
  split
  · exact Contained.refl _ _
  · exact contained_loop C hs ho _ _ _ _ _ hr

/-- C80: if the program comes to its end then the archive opened, and for every entry, its name is UTF-8; if the name ends in
a slash there is a directory where it belongs; if not there was nothing there and is now a file with what a reader of the entry
gave; no file shares its place with another entry; and nothing else is new but directories on the way. -/
theorem C80_extracted (b : Build) (C : Codec) {san : Bytes → Bytes} (hs : Sanitizes san) {out : List Bytes}
    (ho : ∀ c ∈ out, PathPart c) (s : RState) (d : Disk) (hr : Rooted d.fs out)
    (h : (unzipFile b C san (render out) s d).1 = true) :
    ∃ (f : ZipFile) (names : List Bytes), (openFile b s).1 = .ok f ∧ names.length = f.entries.length ∧
      (∀ k e n, f.entries[k]? = some e → names[k]? = some n →
        Extracted C f san out s.data d.fs (unzipFile b C san (render out) s d).2.fs k e.entry n) ∧
      (∀ (j k : Nat) m n, j < k → names[j]? = some m → names[k]? = some n →
        m.getLast? ≠ some 0x2F ∨ n.getLast? ≠ some 0x2F → target san m ≠ target san n) ∧
      OnlyNew out (names.map (target san)) d.fs (unzipFile b C san (render out) s d).2.fs := by
  unfold unzipFile at h ⊢
  split at h
  · cases h
  · rename_i f s1 hf
    cases hl : extractLoop C san (render out) f f.entries 0 s1 d with
    | mk r sd =>
      obtain ⟨s', d'⟩ := sd
      rw [hl] at h
      cases h
      obtain ⟨names, h1, h2, h3, h4⟩ := extractLoop_ok hs ho f.entries 0 s1 s' d d' hr hl
      have hd : s1.data = s.data := by
        have := (openFile_keeps b s).1
        rw [hf] at this
        exact this
      refine ⟨f, names, by rw [hf], h1, fun k e n he hn => ?_, h3, h4⟩
      have := h2 k e n he hn
      rw [hd, Nat.zero_add] at this
      exact this

namespace Samples

/-- A sanitizer. -/
def wash (s : Bytes) : Bytes :=
  if (s.filter (· ≠ 0x2F)).all (· = 0x2E) then [] else s.filter (· ≠ 0x2F)

theorem wash_sanitizes : Sanitizes wash where
  flat s := by unfold wash; split <;> simp
  named s := by
    unfold wash
    split
    · simp
    · rename_i h
      constructor <;> intro h' <;> rw [h'] at h <;> exact h (by decide)
  nothing := rfl

/-- A disk with the directory `/o`. -/
def disk : FS := fun q => if q = [] ∨ q = [[111]] then some .dir else none

theorem disk_rooted : Rooted disk [[111]] := by
  intro q hq
  have : q = [] ∨ q = [[111]] := by
    rcases List.prefix_cons_iff.1 hq with h | ⟨t, rfl, ht⟩
    · exact Or.inl h
    · rw [List.prefix_nil] at ht; subst ht; exact Or.inr rfl
  exact if_pos this

theorem o_plain : ∀ c ∈ [[111]], PathPart c := by
  intro c hc
  rw [List.mem_singleton] at hc
  subst hc
  exact ⟨by decide, by decide, by decide, by decide⟩

/-- `one` with the name `../ab` and a byte of the content changed, so that the checksum is wrong. -/
def slip : Bytes := [
    80, 75, 3, 4, 20, 0, 0, 0, 0, 0, 131, 24, 34, 80, 172, 42, 147, 216, 2, 0, 0, 0, 2, 0,
    0, 0, 5, 0, 6, 0, 46, 46, 47, 97, 98, 153, 119, 2, 0, 1, 2, 104, 111, 80, 75, 1, 2, 20,
    3, 20, 0, 0, 0, 0, 0, 131, 24, 34, 80, 172, 42, 147, 216, 2, 0, 0, 0, 2, 0, 0, 0, 5,
    0, 6, 0, 2, 0, 0, 0, 0, 0, 0, 0, 164, 1, 0, 0, 0, 0, 46, 46, 47, 97, 98, 153, 119,
    2, 0, 1, 2, 111, 107, 80, 75, 5, 6, 0, 0, 0, 0, 1, 0, 1, 0, 59, 0, 0, 0, 43, 0,
    0, 0, 1, 0, 99]

/-- What it lists. -/
def slipFile : ZipFile :=
  { oneFile with entries := [cdEntryOf oneHeader [46, 46, 47, 97, 98] .stored [.unknown ⟨0x7799, 2, [1, 2]⟩] [111, 107]] }

theorem slip_end : OccursAt slip eocdrSig 102 ∧ ∀ j', OccursAt slip eocdrSig j' → j' ≤ 102 :=
  lastEnd_of_decide (by unfold OccursAt; decide +kernel)

theorem slip_opens (b : Build) (hb : 1 ≤ b.maxVecEntries) (pos : Nat) :
    Runs (openFile b) slip pos (.ok slipFile) 102 := by
  refine Runs.openFile (re := .ok slipFile.entries) (comment := [99]) (eo := oneEnd) slip_end.1 slip_end.2 (by decide +kernel)
    (by decide +kernel) (by decide +kernel)
    (fun p => ⟨_, Runs.readCombined_plain (by decide) rfl (by decide +kernel) (by decide +kernel)⟩) rfl rfl
    (Runs.cd hb ?_)
  refine Runs.cdLoop_cons (Runs.cdRecord (hd := oneHeader) (rest := slip.drop 102) (xb := [153, 119, 2, 0, 1, 2])
    (by decide +kernel) rfl rfl rfl rfl (oneExtra b)) Runs.pure

theorem slip_reader (log : List RdEvent) (pos : Nat) : ∃ l, readerWithoutEntry slipFile 0 ⟨slip, pos, none, log⟩ =
    (.ok (EntryReader.new .stored 2), ⟨slip, 41, none, l⟩) := by
  have hr : Runs (readerWithoutEntry slipFile 0) slip pos (.ok (EntryReader.new .stored 2)) 41 := by
    show Runs (seekToDataOffset slipFile.entries[0] >>= _) _ _ _ _
    refine Runs.bind (a := ()) (pos1 := 41) ?_ Runs.pure
    unfold seekToDataOffset
    refine Runs.bind Runs.seekStart (Runs.bind (Runs.readExact (b := [80, 75, 3, 4]) (by decide +kernel) rfl) ?_)
    refine Runs.bind (a := LocalFileHeader.ofBytes ((slip.drop 4).take 26)) (Runs.bind (Runs.readExact rfl
      (by decide +kernel)) Runs.pure) ?_
    exact Runs.bind Runs.seekForward Runs.pure
  exact hr log

theorem slip_content (l : List RdEvent) (n : Nat) (hn : n = 8192) :
    (EntryReader.new .stored 2).readToEnd markCodec n ⟨slip, 41, none, l⟩
      = (.ok ([104, 111], ⟨.stored, 0, none, Hasher.new.update [104, 111]⟩), ⟨slip, 43, none, l ++ [.read 41 2]⟩) := by
  subst hn
  exact (readLoop_step rfl (by decide)).trans (readLoop_stop rfl)

/-- Extracting `slip`, whose entry would like to be outside. -/
theorem slip_extracted (b : Build) (hb : 1 ≤ b.maxVecEntries) (san : Bytes → Bytes) (q : OsPath)
    (hq : OsPath.of (pathPush (render [[111]]) (sanitizeFilePath san [46, 46, 47, 97, 98])) = q)
    (hsl : q.slash = false) (hn : disk q.resolve = none) (hpar : ∃ p, q.parent = some p ∧ disk p.resolve = some .dir)
    (hup : disk q.resolve.dropLast = some .dir) :
    unzipFile b markCodec san (render [[111]]) ⟨slip, 0, none, []⟩ ⟨disk, []⟩ =
      (true, ⟨fun r => if r = q.resolve then some (.file [104, 111]) else if r = q.resolve then some (.file []) else disk r, []⟩) := by
  obtain ⟨l, h⟩ := slip_opens b hb 0 []
  obtain ⟨l', h'⟩ := slip_reader l 102
  obtain ⟨p, hp, hpd⟩ := hpar
  have hst : Disk.stat ⟨disk, []⟩ p = some .dir := by
    unfold Disk.stat
    rw [show (⟨disk, []⟩ : Disk).fs p.resolve = some .dir from hpd]
  have hnew : Disk.createNew ⟨disk, []⟩ q = (true, ⟨fun r => if r = q.resolve then some (.file []) else disk r, []⟩) := by
    unfold Disk.createNew
    rw [if_neg (by rw [hsl]; simp [hn, hup])]
    rfl
  have hf : extractFile markCodec (EntryReader.new .stored 2) q ⟨slip, 41, none, l'⟩ ⟨disk, []⟩ =
      (true, ⟨slip, 43, none, l' ++ [.read 41 2]⟩,
        ⟨fun r => if r = q.resolve then some (.file [104, 111]) else if r = q.resolve then some (.file []) else disk r, []⟩) := by
    unfold extractFile
    rw [hp]
    simp only [hst, if_pos, hnew]
    unfold copyOut
    rw [slip_content l' 8192 rfl]
    rfl
  have he : extractEntry markCodec san (render [[111]]) slipFile 0 slipFile.entries[0].entry ⟨slip, 102, none, l⟩ ⟨disk, []⟩ =
      extractFile markCodec (EntryReader.new .stored 2) q ⟨slip, 41, none, l'⟩ ⟨disk, []⟩ := by
    unfold extractEntry
    rw [show slipFile.entries[0].entry.filename.asStr = .ok [46, 46, 47, 97, 98] from rfl,
      show slipFile.entries[0].entry.dir = .ok false from rfl, h', ← hq]
    rfl
  unfold unzipFile
  rw [h]
  show (((extractLoop markCodec san (render [[111]]) slipFile [slipFile.entries[0]] 0 ⟨slip, 102, none, l⟩ ⟨disk, []⟩).1),
    (extractLoop markCodec san (render [[111]]) slipFile [slipFile.entries[0]] 0 ⟨slip, 102, none, l⟩ ⟨disk, []⟩).2.2) = _
  unfold extractLoop
  rw [he, hf]
  rfl

end Samples

/-- C79 and C80 on a real archive: its entry is called `../ab`; it is extracted, to `/o/ab`, and nothing else happens. -/
example : ∃ d', unzipFile ⟨true, 1⟩ Samples.markCodec Samples.wash (render [[111]]) ⟨Samples.slip, 0, none, []⟩ ⟨Samples.disk, []⟩ =
      (true, d') ∧ d'.fs [[111], [97, 98]] = some (.file [104, 111]) ∧ (∀ q, ¬ Below [[111]] q → d'.fs q = Samples.disk q) ∧
      ∃ f, (openFile ⟨true, 1⟩ ⟨Samples.slip, 0, none, []⟩).1 = .ok f := by
  have hx := Samples.slip_extracted ⟨true, 1⟩ (by decide) Samples.wash ⟨[[111], [97, 98]], false⟩ (by decide) rfl rfl
    ⟨⟨[[111]], false⟩, rfl, rfl⟩ rfl
  have hc := C79_contained ⟨true, 1⟩ Samples.markCodec Samples.wash_sanitizes Samples.o_plain ⟨Samples.slip, 0, none, []⟩
    ⟨Samples.disk, []⟩ Samples.disk_rooted
  obtain ⟨f, _, hf, _⟩ := C80_extracted ⟨true, 1⟩ Samples.markCodec Samples.wash_sanitizes Samples.o_plain
    ⟨Samples.slip, 0, none, []⟩ ⟨Samples.disk, []⟩ Samples.disk_rooted (by rw [hx])
  rw [hx] at hc
  exact ⟨_, hx, rfl, hc.outside, f, hf⟩

/-- C79 is the sanitizer's doing: a program that takes names as they are puts the same entry in `/ab`. -/
example : ∃ d', unzipFile ⟨true, 1⟩ Samples.markCodec id (render [[111]]) ⟨Samples.slip, 0, none, []⟩ ⟨Samples.disk, []⟩ =
    (true, d') ∧ d'.fs [[97, 98]] = some (.file [104, 111]) :=
  ⟨_, Samples.slip_extracted ⟨true, 1⟩ (by decide) id ⟨[[111], [46, 46], [97, 98]], false⟩ (by decide) rfl rfl
    ⟨⟨[[111], [46, 46]], false⟩, rfl, rfl⟩ rfl, rfl⟩

/-- C80 says no more of the content than that it was read: the program does not look at checksums. An entry whose data does not
have its checksum, so that a checked read of it fails, is extracted all the same and the program comes to its end. -/
theorem C80_checksum_fails : ∃ (data : Bytes) (f : ZipFile) (san : Bytes → Bytes) (out : List Bytes) (d d' : Disk),
    Sanitizes san ∧ (∀ c ∈ out, PathPart c) ∧ Rooted d.fs out ∧
    (∀ B : Build, 1 ≤ B.maxVecEntries → (openFile B ⟨data, 0, none, []⟩).1 = .ok f ∧
      unzipFile B Samples.markCodec san (render out) ⟨data, 0, none, []⟩ d = (true, d')) ∧
    (∃ c, d'.fs (out ++ [[97, 98]]) = some (.file c)) ∧
    (checkedRead Samples.markCodec f 0 8192 ⟨data, 0, none, []⟩).1 = .error (.err .crc32CheckError) := by
  refine ⟨Samples.slip, Samples.slipFile, Samples.wash, [[111]], ⟨Samples.disk, []⟩, _, Samples.wash_sanitizes, Samples.o_plain,
    Samples.disk_rooted, fun B hB => ⟨?_, Samples.slip_extracted B hB Samples.wash ⟨[[111], [97, 98]], false⟩ (by decide) rfl rfl
    ⟨⟨[[111]], false⟩, rfl, rfl⟩ rfl⟩, ⟨_, rfl⟩, ?_⟩
  · obtain ⟨l, h⟩ := Samples.slip_opens B hB 0 []
    rw [h]
  · obtain ⟨l, h⟩ := Samples.slip_reader [] 0
    have hr : readerWithEntry Samples.slipFile 0 ⟨Samples.slip, 0, none, []⟩ =
        (.ok (EntryReader.new .stored 2, Samples.slipFile.entries[0].entry), ⟨Samples.slip, 41, none, l⟩) := by
      rw [readerWithoutEntry_eq] at h
      cases hx : readerWithEntry Samples.slipFile 0 ⟨Samples.slip, 0, none, []⟩ with
      | mk r s =>
        cases r with
        | error e => rw [bind_of_error hx] at h; cases h
        | ok a =>
          rw [bind_of_ok hx] at h
          obtain ⟨er, e⟩ := a
          obtain ⟨se, g1, g2, g3, _⟩ := readerWithEntry_ok hx
          cases g1
          subst g2
          cases h
          rfl
    unfold checkedRead
    rw [bind_of_ok hr]
    show (((EntryReader.new .stored 2).readToEndChecked Samples.markCodec 8192 3633523372 >>= _) _).1 = _
    have hk : (EntryReader.new .stored 2).readToEndChecked Samples.markCodec 8192 3633523372 ⟨Samples.slip, 41, none, l⟩
        = (.error (.err .crc32CheckError), ⟨Samples.slip, 43, none, l ++ [.read 41 2]⟩) := by
      refine (bind_of_ok (Samples.slip_content l 8192 rfl)).trans ?_
      show (if (Hasher.new.update [104, 111]).finalize = 3633523372 then _ else _ : Rd _) _ = _
      rw [if_neg (by decide +kernel)]
      rfl
    rw [bind_of_error hk]

end AsyncZip
