import Verif.Proofs.CliPack
import Verif.Samples.Trees
import Verif.Samples.ProgramRuns
import Verif.Proofs.SampleCodec
/-!
# What the compression example packs

C98, about `examples/cli_compress.rs`.
-/

namespace AsyncZip
open Spec

variable {t : Tree} (hB : Browsable t)
include hB

/-- C98, the walk: where what is below a directory has an end, so has the walk, and it finds the path of every file below, once,
and nothing else. -/
theorem C98_walk {input : List Bytes} (hd : t.fs input = some .dir) (hf : Bounded t.fs input) :
    ∃ n rels, AllFiles t.fs input rels ∧
      ∀ m, n ≤ m → walkDir t m [] [render input] [] = (.files (rels.map fun r => render (input ++ r)), []) := by
  obtain ⟨all, ha⟩ := hf
  obtain ⟨ps, h⟩ := walk_ends hB ha (all.countP fun q => decide (∃ d ∈ [input], d <+: q)) [input] [] (by simp [hd])
    (by simp) (List.pairwise_singleton _ _) (Nat.le_refl _)
  obtain ⟨rels, h1, h2⟩ := walk_files hB hd h
  exact ⟨_, rels, h1, fun m hm => by rw [← h2]; exact walk_mono hm h⟩

/-- Whatever was listed can be packed. -/
theorem rels_fit {input : List Bytes} (hd : t.fs input = some .dir) {rels : List (List Bytes)} (h : AllFiles t.fs input rels) :
    ∀ r ∈ rels, r ≠ [] ∧ (∀ c ∈ input ++ r, PathPart c) ∧ ∃ x, t.fs (input ++ r) = some (.file x) := by
  intro r hr
  obtain ⟨x, hx⟩ := (h.all r).1 hr
  refine ⟨?_, hB.parts _ (by rw [hx]; simp), x, hx⟩
  rintro rfl
  rw [List.append_nil, hd] at hx
  cases hx

/-- C98, directories: if the program comes to its end, whatever the operating system did meanwhile, then the archive is what a
fresh writer makes of the files below the directory: each once, under its path relative to the directory, with its content, and
nothing else. All these names are UTF-8. (The root directory is another matter: `C98_root_fails`.) -/
theorem C98_directory_partial (C : Codec) {input : List Bytes} (hi : input ≠ []) (hd : t.fs input = some .dir) (n : Nat) (os : List OsEv)
    (evs : Nat → List Ev) (sink : Sink) (h : cliCompress C t n input (render input) os evs = .done sink) :
    ∃ rels, AllFiles t.fs input rels ∧ (∀ r ∈ rels, IsUtf8 (joined r)) ∧ PackedInto C evs (itemsOf t.fs input rels) sink := by
  unfold cliCompress at h
  rw [hd] at h
  simp only at h
  unfold handleDirectory at h
  cases hw : walkDir t n os [render input] [] with
  | mk w os' =>
    rw [hw] at h
    cases w with
    | stopped => cases h
    | running => cases h
    | files ps =>
      obtain ⟨rels, h1, rfl⟩ := walk_files hB hd hw
      simp only at h
      by_cases hv : utf8Valid (render input) = true
      · rw [if_pos hv] at h
        cases hl : packLoop C t (render input) evs (rels.map fun r => render (input ++ r)) 0 os' (.new ⟨[], 0, 0⟩) with
        | mk a zw' =>
          rw [hl] at h
          cases a with
          | refused => cases h
          | panic => cases h
          | running => cases h
          | done k =>
            obtain ⟨g1, g2, rs, g3, g4⟩ := packLoop_done hi hv evs rels 0 os' _ k zw' (rels_fit hB hd h1) hl
            rw [ofRes_done, g1, Nat.zero_add] at h
            refine ⟨rels, h1, fun r hr => (utf8Valid_iff _).1 (g2 r hr), ?_⟩
            unfold PackedInto runArchive
            rw [g3, show (itemsOf t.fs input rels).length = rels.length from List.length_map ..]
            exact ⟨h, g4⟩
      · rw [if_neg hv] at h
        cases h

/-- C98, when it succeeds: with a disk that does not fail and has an end, the program comes to its end with an archive if and only
if the names are UTF-8 and the writer takes every file. -/
theorem C98_completes_partial (C : Codec) {input : List Bytes} (hi : input ≠ []) (hu : IsUtf8 (render input))
    (hd : t.fs input = some .dir) (hf : Bounded t.fs input) :
    ∃ n rels, AllFiles t.fs input rels ∧ ∀ m, n ≤ m → ∀ (evs : Nat → List Ev) (sink : Sink),
      (cliCompress C t m input (render input) [] evs = .done sink ↔
        (∀ r ∈ rels, IsUtf8 (joined r)) ∧ PackedInto C evs (itemsOf t.fs input rels) sink) := by
  obtain ⟨n, rels, h1, h2⟩ := C98_walk hB hd hf
  refine ⟨n, rels, h1, fun m hm evs sink => ?_⟩
  have hv := (utf8Valid_iff _).2 hu
  unfold cliCompress
  rw [hd]
  simp only
  unfold handleDirectory
  rw [h2 m hm]
  simp only
  rw [if_pos hv]
  constructor
  · intro h
    cases hl : packLoop C t (render input) evs (rels.map fun r => render (input ++ r)) 0 [] (.new ⟨[], 0, 0⟩) with
    | mk a zw' =>
      rw [hl] at h
      cases a with
      | refused => cases h
      | panic => cases h
      | running => cases h
      | done k =>
        obtain ⟨g1, g2, rs, g3, g4⟩ := packLoop_done hi hv evs rels 0 [] _ k zw' (rels_fit hB hd h1) hl
        rw [ofRes_done, g1, Nat.zero_add] at h
        refine ⟨fun r hr => (utf8Valid_iff _).1 (g2 r hr), ?_⟩
        unfold PackedInto runArchive
        rw [g3, show (itemsOf t.fs input rels).length = rels.length from List.length_map ..]
        exact ⟨h, g4⟩
  · rintro ⟨g1, g2, g3⟩
    unfold runArchive at g2 g3
    cases hr : runOps C (.new ⟨[], 0, 0⟩) (packCalls evs 0 (itemsOf t.fs input rels)) with
    | mk rs zw' =>
      rw [hr] at g2 g3
      rw [packLoop_ok hi hv evs rels 0 _ zw' rs (rels_fit hB hd h1) (fun r hr => (utf8Valid_iff _).2 (g1 r hr)) hr g3]
      simp only
      rw [ofRes_done, Nat.zero_add, ← show (itemsOf t.fs input rels).length = rels.length from List.length_map ..]
      exact g2

/-- C98, single files: a file is packed under its own name. -/
theorem C98_single (C : Codec) {up : List Bytes} {name x : Bytes} (hx : t.fs (up ++ [name]) = some (.file x)) (n : Nat)
    (evs : Nat → List Ev) (sink : Sink) :
    cliCompress C t n (up ++ [name]) (render (up ++ [name])) [] evs = .done sink ↔
      IsUtf8 name ∧ PackedInto C evs [(name, x)] sink := by
  unfold cliCompress
  rw [hx]
  simp only
  unfold handleSingular
  rw [List.getLast?_append_of_ne_nil _ (by simp), List.getLast?_singleton]
  simp only
  by_cases hv : utf8Valid name = true
  · rw [if_pos hv]
    have key : ∀ zw', packEntry C t .go (evs 0) name (render (up ++ [name])) (.new ⟨[], 0, 0⟩) = (.done (), zw') ↔ _ :=
      fun zw' => packEntry_done (zw' := zw') (hB.parts _ (by rw [hx]; simp)) hx
    unfold PackedInto runArchive
    show (match (match packEntry C t .go (evs 0) name (render (up ++ [name])) (.new ⟨[], 0, 0⟩) with
      | (.done _, zw') => ((.done 1, zw') : Packing Nat × ZipWriter)
      | (.refused, zw') => (.refused, zw')
      | (.panic, zw') => (.panic, zw')
      | (.running, zw') => (.running, zw')) with
      | (.done k, zw') => Packing.ofRes (closeArchive { zw := zw', evs := evs k }).1
      | (.refused, _) => .refused
      | (.panic, _) => .panic
      | (.running, _) => .running) = _ ↔ _
    simp only [packCalls, runOps, List.length_singleton]
    cases hop : runOp C (.new ⟨[], 0, 0⟩) (.whole (ZipEntry.new ⟨.utf8, name, none⟩ .deflate) x false (evs 0)) with
    | mk a zw1 =>
      simp only
      constructor
      · intro h
        cases he : packEntry C t .go (evs 0) name (render (up ++ [name])) (.new ⟨[], 0, 0⟩) with
        | mk b zw2 =>
          rw [he] at h
          cases b with
          | refused => cases h
          | panic => cases h
          | running => cases h
          | done u =>
            obtain ⟨_, g⟩ := (key zw2).1 he
            rw [hop] at g
            cases g
            exact ⟨(utf8Valid_iff _).1 hv, ofRes_done.1 h, fun r hr => List.mem_singleton.1 hr⟩
      · rintro ⟨_, g1, g2⟩
        have ha := g2 a List.mem_cons_self
        subst ha
        rw [(key zw1).2 ⟨rfl, hop⟩]
        exact ofRes_done.2 g1
  · rw [if_neg hv]
    exact ⟨fun h => (by cases h), fun h => absurd ((utf8Valid_iff _).2 h.1) hv⟩

omit hB

theorem rootFile_walk (n : Nat) : walkDir Samples.rootFile (n + 1) [] [render []] [] = (.files [[0x2F, 97, 98]], []) := by
  cases n <;> rfl

/-- C98 for the root directory: the first byte of every name is cut off. (The name is taken from the path at the length of the
directory's path plus one, `examples/cli_compress.rs:78`; the path of the root directory ends in its slash.) -/
theorem C98_root_fails : ∃ t : Tree, Browsable t ∧ t.fs [] = some .dir ∧ AllFiles t.fs [] [[[97, 98]]] ∧
    ∀ (C : Codec) (n : Nat) (evs : Nat → List Ev) (sink : Sink),
      cliCompress C t (n + 1) [] (render []) [] evs = .done sink ↔ PackedInto C evs [([98], [7])] sink := by
  refine ⟨Samples.rootFile, Samples.rootFile_browsable, rfl, ⟨List.pairwise_singleton _ _, fun r => ?_⟩, fun C n evs sink => ?_⟩
  · rw [List.mem_singleton]
    constructor
    · rintro rfl
      exact ⟨[7], rfl⟩
    · rintro ⟨c, hc⟩
      obtain ⟨x, hx, he⟩ := Samples.treeOf_mem (l := [([], .dir), ([[97, 98]], .file [7])]) (q := [] ++ r) (by
        show Samples.rootFile.fs ([] ++ r) ≠ none
        rw [hc]; simp)
      rcases List.mem_cons.1 hx with rfl | hx
      · rw [← he] at hc; cases hc
      · rw [List.mem_singleton] at hx
        subst hx
        exact he.symm
  · unfold cliCompress
    rw [show Samples.rootFile.fs [] = some .dir from rfl]
    simp only
    unfold handleDirectory
    rw [rootFile_walk]
    simp only
    rw [if_pos (by decide +kernel), packLoop, if_pos (by decide +kernel),
      show sliceFrom [0x2F, 97, 98] ((render []).length + 1) = some [98] by decide +kernel]
    unfold PackedInto runArchive
    simp only [packCalls, runOps, List.length_singleton]
    show (match (match packEntry C Samples.rootFile .go (evs 0) [98] (render [[97, 98]]) (.new ⟨[], 0, 0⟩) with
      | (.done _, zw') => packLoop C Samples.rootFile (render []) evs [] 1 [] zw'
      | (.refused, zw') => (.refused, zw')
      | (.panic, zw') => (.panic, zw')
      | (.running, zw') => (.running, zw')) with
      | (.done k, zw') => Packing.ofRes (closeArchive { zw := zw', evs := evs k }).1
      | (.refused, _) => .refused
      | (.panic, _) => .panic
      | (.running, _) => .running) = _ ↔ _
    have key : ∀ zw', packEntry C Samples.rootFile .go (evs 0) [98] (render [[97, 98]]) (.new ⟨[], 0, 0⟩) = (.done (), zw') ↔ _ :=
      fun zw' => packEntry_done (zw' := zw') (x := [7]) (Samples.rootFile_browsable.parts [[97, 98]] (by decide +kernel)) rfl
    cases hop : runOp C (.new ⟨[], 0, 0⟩) (.whole (ZipEntry.new ⟨.utf8, [98], none⟩ .deflate) [7] false (evs 0)) with
    | mk a zw1 =>
      simp only
      constructor
      · intro h
        cases he : packEntry C Samples.rootFile .go (evs 0) [98] (render [[97, 98]]) (.new ⟨[], 0, 0⟩) with
        | mk b zw2 =>
          rw [he] at h
          cases b with
          | refused => cases h
          | panic => cases h
          | running => cases h
          | done u =>
            obtain ⟨_, g⟩ := (key zw2).1 he
            rw [hop] at g
            cases g
            exact ⟨ofRes_done.1 h, fun r hr => List.mem_singleton.1 hr⟩
      · rintro ⟨g1, g2⟩
        have ha := g2 a List.mem_cons_self
        subst ha
        rw [(key zw1).2 ⟨rfl, hop⟩]
        exact ofRes_done.2 g1

/-- C98 for the root directory: if that byte is not a whole character, the program panics. -/
theorem C98_root_panics_fails : ∃ t : Tree, Browsable t ∧ t.fs [] = some .dir ∧ Bounded t.fs [] ∧
    (∀ q, t.fs q ≠ none → IsUtf8 (render q)) ∧
    ∀ (C : Codec) (n : Nat) (evs : Nat → List Ev), cliCompress C t (n + 1) [] (render []) [] evs = .panic := by
  refine ⟨Samples.rootAccent, Samples.rootAccent_browsable, rfl, Samples.treeOf_bounded _ _, fun q hq => ?_, fun C n evs => ?_⟩
  · obtain ⟨x, hx, rfl⟩ := Samples.treeOf_mem hq
    refine (utf8Valid_iff _).1 ?_
    revert x
    decide +kernel
  · unfold cliCompress
    rw [show Samples.rootAccent.fs [] = some .dir from rfl]
    simp only
    unfold handleDirectory
    rw [show walkDir Samples.rootAccent (n + 1) [] [render []] [] = (.files [[0x2F, 0xC3, 0xA9]], []) by cases n <;> rfl]
    simp only
    rw [if_pos (by decide +kernel), packLoop, if_pos (by decide +kernel),
      show sliceFrom [0x2F, 0xC3, 0xA9] ((render []).length + 1) = none by decide +kernel]

/-! ## Cases that meet the hypotheses -/

namespace Samples

/-- The files of the sample directory. -/
theorem home_files {rels : List (List Bytes)} (h : AllFiles home.fs [[104]] rels) (r : List Bytes) :
    r ∈ rels ↔ r = [[97]] ∨ r = [[100], [98]] := by
  rw [h.all]
  constructor
  · rintro ⟨c, hc⟩
    obtain ⟨x, hx, he⟩ := treeOf_mem (l := [([], .dir), ([[104]], .dir), ([[104], [97]], .file [1, 2]), ([[104], [100]], .dir),
      ([[104], [100], [98]], .file [7]), ([[104], [101]], .dir)]) (q := [[104]] ++ r) (by
        show home.fs ([[104]] ++ r) ≠ none
        rw [hc]; simp)
    simp only [List.mem_cons, List.not_mem_nil, or_false] at hx
    rcases hx with rfl | rfl | rfl | rfl | rfl | rfl
    · cases he
    · rw [← he] at hc; cases hc
    · simp at he; exact Or.inl he.symm
    · rw [← he] at hc; cases hc
    · simp at he; exact Or.inr he.symm
    · rw [← he] at hc; cases hc
  · rintro (rfl | rfl)
    · exact ⟨_, rfl⟩
    · exact ⟨_, rfl⟩

/-- The sample directory, packed. -/
def homeBytes : Bytes :=
  [80, 75, 3, 4, 20, 0, 0, 8, 8, 0, 0, 0, 0, 0, 146, 66, 204, 182, 5, 0, 0, 0, 2, 0, 0, 0, 1, 0, 0, 0, 97, 1, 1, 1, 2,
   0, 80, 75, 3, 4, 20, 0, 0, 8, 8, 0, 0, 0, 0, 0, 46, 122, 102, 76, 3, 0, 0, 0, 1, 0, 0, 0, 3, 0, 0, 0, 100, 47, 98, 1,
   7, 0, 80, 75, 1, 2, 63, 3, 20, 0, 0, 8, 8, 0, 0, 0, 0, 0, 146, 66, 204, 182, 5, 0, 0, 0, 2, 0, 0, 0, 1, 0, 0, 0, 0,
   0, 0, 0, 0, 0, 0, 0, 0, 0, 0, 0, 0, 0, 97, 80, 75, 1, 2, 63, 3, 20, 0, 0, 8, 8, 0, 0, 0, 0, 0, 46, 122, 102, 76, 3,
   0, 0, 0, 1, 0, 0, 0, 3, 0, 0, 0, 0, 0, 0, 0, 0, 0, 0, 0, 0, 0, 36, 0, 0, 0, 100, 47, 98, 80, 75, 5, 6, 0, 0, 0, 0, 2,
   0, 2, 0, 96, 0, 0, 0, 72, 0, 0, 0, 0, 0]

theorem home_packed : cliCompress markCodec home 3 [[104]] (render [[104]]) [] (fun _ => eager) = .done ⟨homeBytes, 0, 0⟩ := by
  decide +kernel

end Samples

/-- C98: the sample directory is walked in three turns, and more do not hurt. -/
example : ∃ n rels, AllFiles Samples.home.fs [[104]] rels ∧ [[100], [98]] ∈ rels ∧ [[101]] ∉ rels ∧
    ∀ m, n ≤ m → walkDir Samples.home m [] [render [[104]]] [] = (.files (rels.map fun r => render ([[104]] ++ r)), []) := by
  obtain ⟨n, rels, h1, h2⟩ := C98_walk Samples.home_browsable (input := [[104]]) rfl (Samples.treeOf_bounded _ _)
  exact ⟨n, rels, h1, (Samples.home_files h1 _).2 (Or.inr rfl), fun h => by simpa using (Samples.home_files h1 _).1 h, h2⟩

/-- C98: and packed, as `a` and `d/b`. -/
example : ∃ rels, AllFiles Samples.home.fs [[104]] rels ∧ ([100, 0x2F, 98], [7]) ∈ itemsOf Samples.home.fs [[104]] rels ∧
    PackedInto Samples.markCodec (fun _ => Samples.eager) (itemsOf Samples.home.fs [[104]] rels) ⟨Samples.homeBytes, 0, 0⟩ := by
  obtain ⟨rels, h1, _, h2⟩ := C98_directory_partial Samples.home_browsable Samples.markCodec (by simp) rfl 3 [] _ _ Samples.home_packed
  exact ⟨rels, h1, List.mem_map.2 ⟨[[100], [98]], (Samples.home_files h1 _).2 (Or.inr rfl), rfl⟩, h2⟩

/-- C98: the names are UTF-8, so all depends on the writer. -/
example : ∃ n rels, AllFiles Samples.home.fs [[104]] rels ∧ ∀ m, n ≤ m → ∀ (evs : Nat → List Ev) (sink : Sink),
    (cliCompress Samples.markCodec Samples.home m [[104]] (render [[104]]) [] evs = .done sink ↔
      PackedInto Samples.markCodec evs (itemsOf Samples.home.fs [[104]] rels) sink) := by
  obtain ⟨n, rels, h1, h2⟩ := C98_completes_partial Samples.home_browsable Samples.markCodec (input := [[104]]) (by simp)
    ((utf8Valid_iff _).1 (by decide +kernel)) rfl (Samples.treeOf_bounded _ _)
  refine ⟨n, rels, h1, fun m hm evs sink => (h2 m hm evs sink).trans ⟨fun h => h.2, fun h => ⟨fun r hr => ?_, h⟩⟩⟩
  rcases (Samples.home_files h1 r).1 hr with rfl | rfl
  · exact (utf8Valid_iff _).1 (by decide +kernel)
  · exact (utf8Valid_iff _).1 (by decide +kernel)

/-- C98: the file `/h/a`, alone. -/
example (evs : Nat → List Ev) (sink : Sink) :
    cliCompress Samples.markCodec Samples.home 0 ([[104]] ++ [[97]]) (render ([[104]] ++ [[97]])) [] evs = .done sink ↔
      IsUtf8 [97] ∧ PackedInto Samples.markCodec evs [([97], [1, 2])] sink :=
  C98_single Samples.home_browsable Samples.markCodec rfl 0 evs sink

end AsyncZip
