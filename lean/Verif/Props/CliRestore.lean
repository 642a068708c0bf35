import Verif.Proofs.CliRestore
import Verif.Props.CliCompress
/-!
# Packing a directory with one example and unpacking it with the other

C99, about `examples/cli_compress.rs` and `examples/file_extraction.rs`.
-/

namespace AsyncZip
open Spec

/-- C99: a directory is packed by the one example, and the archive extracted by the other to a directory with nothing in it. The
extraction comes to its end, changes nothing else, and leaves exactly the files that were packed, with their contents, and the
directories on the way to them.

It is assumed that the archive says what it means (as for C41 and C42), that the sanitizer leaves the names as they are (which
excludes backslashes, which are taken for slashes), and that the reader can hold the listing. Empty directories are lost:
`C99_empty_directories_fails`. -/
theorem C99_restored_partial (C : Codec) (hC : Lawful C) {t : Tree} (hB : Browsable t) {input : List Bytes} (hi : input ≠ [])
    (hd : t.fs input = some .dir) (n : Nat) (os : List OsEv) (evs : Nat → List Ev) (sink : Sink)
    (h : cliCompress C t n input (render input) os evs = .done sink)
    (hlast : LastEnd sink.bytes (sink.bytes.length - 22))
    (hloc : HasLocator sink.bytes (sink.bytes.length - 22) → ∀ rels, AllFiles t.fs input rels →
      (runArchive C (.new ⟨[], 0, 0⟩) (packCalls evs 0 (itemsOf t.fs input rels)) (evs rels.length)).2.2.isZip64 = true)
    (hsize : sink.bytes.length < 2 ^ 64)
    (hsmall : sink.bytes.length ≤ 0xFFFFFFFF ∨ ∀ r x, t.fs (input ++ r) = some (.file x) →
      UInt64.ofNat x.length ≠ 0xFFFFFFFF ∧ ∀ z, StoredAs C .deflate .default x z → UInt64.ofNat z.length ≠ 0xFFFFFFFF)
    (b : Build) (hb : ∀ rels, AllFiles t.fs input rels → rels.length ≤ b.maxVecEntries)
    {san : Bytes → Bytes} (hsan : Sanitizes san)
    (hkeep : ∀ r x, t.fs (input ++ r) = some (.file x) → ∀ c ∈ r, san c = c ∧ (0x5C : UInt8) ∉ c)
    {out : List Bytes} (ho : ∀ c ∈ out, PathPart c) (fs : FS) (hg : Grown fs) (hr : Rooted fs out)
    (hempty : ∀ r, r ≠ [] → fs (out ++ r) = none) (pos : Nat) (log : List RdEvent) :
    ∃ d', unzipFile b C san (render out) ⟨sink.bytes, pos, none, log⟩ ⟨fs, []⟩ = (true, d') ∧ Contained out fs d'.fs ∧
      Restored t.fs input d'.fs out := by
  obtain ⟨rels, h1, h2, h3, h4⟩ := C98_directory_partial hB C hi hd n os evs sink h
  have hfit := rels_fit hB hd h1
  have hlen : (itemsOf t.fs input rels).length = rels.length := List.length_map ..
  rw [hlen] at h3 h4
  have hpart : ∀ r ∈ rels, ∀ c ∈ r, PathPart c := fun r hr c hc => (hfit r hr).2.1 c (List.mem_append_right _ hc)
  have htame : ∀ r ∈ rels, ∀ c ∈ r, Tame san c := fun r hr c hc => by
    obtain ⟨x, hx⟩ := (h1.all r).1 hr
    obtain ⟨g1, g2⟩ := hkeep r x hx c hc
    exact ⟨g1, g2⟩
  have htarget : ∀ r ∈ rels, target san (joined r) = r := fun r hr => target_joined (hfit r hr).1 (hpart r hr) (htame r hr)
  have hcom : archiveComment (packCalls evs 0 (itemsOf t.fs input rels)) = [] := by
    unfold archiveComment
    rw [packCalls_comment]
  have hops : (runArchive C (.new ⟨[], 0, 0⟩) (packCalls evs 0 (itemsOf t.fs input rels)) (evs rels.length)).1.length =
      (itemsOf t.fs input rels).length := by
    rw [← packCalls_length evs (itemsOf t.fs input rels) 0]
    exact runOps_length _ _ _
  have hitem : ∀ x ∈ itemsOf t.fs input rels, ∃ r ∈ rels, x = (joined r, contentAt t.fs (input ++ r)) := by
    intro x hx
    obtain ⟨r, hr, rfl⟩ := List.mem_map.1 hx
    exact ⟨r, hr, rfl⟩
  have hcont : ∀ r x, t.fs (input ++ r) = some (.file x) → contentAt t.fs (input ++ r) = x := by
    intro r x hx
    unfold contentAt
    rw [hx]
  have hbelow : ∀ r q y, q <+: out ++ r → fs q ≠ some (.file y) := by
    intro r q y hq hqy
    rcases List.prefix_or_prefix_of_prefix hq (List.prefix_append out r) with h' | ⟨r', rfl⟩
    · rw [hr q h'] at hqy; cases hqy
    · by_cases hr' : r' = []
      · subst hr'
        rw [List.append_nil, hr out (List.prefix_refl _)] at hqy
        cases hqy
      · rw [hempty r' hr'] at hqy; cases hqy
  have happart : ∀ r ∈ rels, ∀ r' ∈ rels, r ≠ r' → ¬ r <+: r' := by
    intro r hr r' hr' hne hpre
    obtain ⟨x, hx⟩ := (h1.all r).1 hr
    obtain ⟨y, hy⟩ := (h1.all r').1 hr'
    obtain ⟨s, rfl⟩ := hpre
    have := hB.grown _ (input ++ r) (by rw [hy]; simp) ⟨s, by simp⟩ (by
      intro h'
      exact hne (List.append_cancel_left h'))
    rw [hx] at this
    cases this
  obtain ⟨d', g1, g2, g3, g4⟩ := C82_packed C hC ⟨[], 0, 0⟩ sink (.new ⟨[], 0, 0⟩) .new rfl _ _ h3
    { own := fun op hop f hf => by
        obtain ⟨x, _, ev, rfl⟩ := packCalls_mem hop
        cases hf
      comment := by rw [hcom]; decide
      last := by rw [hcom]; exact hlast
      locator := by rw [hcom]; exact fun hl => hloc hl rels h1
      count := fun r hr => by rw [h4 r hr]; exact fun h' => by cases h'
      size := hsize }
    (hsmall.imp_right fun hx ls hl => program_sizes (P := fun n => n ≠ 0xFFFFFFFF) hl fun x hx' => by
      obtain ⟨r, hr, rfl⟩ := hitem x hx'
      obtain ⟨y, hy⟩ := (h1.all r).1 hr
      simp only
      rw [hcont r y hy]
      exact hx r y hy)
    (fun hf => by cases hf) (itemsOf t.fs input rels)
    (packCalls_packs evs _ 0 _ (fun x hx => by
      obtain ⟨r, hr, rfl⟩ := hitem x hx
      exact ⟨(utf8Valid_iff _).2 (h2 r hr), (joined_last (hfit r hr).1 (hpart r hr)).2⟩) hops h4)
    b (by rw [hlen]; exact hb rels h1) hsan ho fs hg hr
    (fun x hx => by
      obtain ⟨r, hr, rfl⟩ := hitem x hx
      refine ⟨fun q c hq => hbelow _ q c hq, fun _ => ⟨lastPiece_joined (hfit r hr).1 (hpart r hr) (htame r hr), ?_⟩⟩
      simp only
      rw [htarget r hr]
      exact hempty r (hfit r hr).1)
    (by
      unfold itemsOf
      refine List.pairwise_map.2 (h1.once.imp_of_mem fun {r r'} hr hr' hne => ?_)
      simp only
      unfold Apart
      rw [htarget r hr, htarget r' hr']
      exact ⟨fun _ => happart r hr r' hr' hne, fun _ => happart r' hr' r hr (Ne.symm hne)⟩)
    pos log
  have hgd := unzip_grown hsan ho hg g1
  have hfile : ∀ r ∈ rels, ∀ x, t.fs (input ++ r) = some (.file x) → d'.fs (out ++ r) = some (.file x) := by
    intro r hr x hx
    have := g4 (joined r, contentAt t.fs (input ++ r)) (List.mem_map.2 ⟨r, hr, rfl⟩)
    simp only at this
    rw [htarget r hr, if_neg (joined_last (hfit r hr).1 (hpart r hr)).1, hcont r x hx] at this
    exact this
  have hnew : ∀ r, r ≠ [] → d'.fs (out ++ r) ≠ none → ∃ r' ∈ rels, r = r' ∨ (r <+: r' ∧ d'.fs (out ++ r) = some .dir) := by
    intro r hr hne
    obtain ⟨u, hu, hq⟩ := g3 (out ++ r) (hempty r hr) hne
    obtain ⟨x, hx, rfl⟩ := List.mem_map.1 hu
    obtain ⟨r', hr', rfl⟩ := hitem x hx
    refine ⟨r', hr', ?_⟩
    simp only at hq
    rw [htarget r' hr'] at hq
    rcases hq with hq | ⟨hq, hdir⟩
    · exact Or.inl (List.append_cancel_left hq)
    · exact Or.inr ⟨(List.prefix_append_right_inj out).1 hq, hdir⟩
  refine ⟨d', g1, g2, ⟨fun r c => ⟨fun hc => ?_, fun hc => hfile r ((h1.all r).2 ⟨c, hc⟩) c hc⟩, fun r hrne => ⟨fun hc => ?_, ?_⟩⟩⟩
  · by_cases hr0 : r = []
    · subst hr0
      rw [List.append_nil, g2.kept out .dir (hr out (List.prefix_refl _))] at hc
      cases hc
    · obtain ⟨r', hr', he | ⟨_, he⟩⟩ := hnew r hr0 (by rw [hc]; simp)
      · subst he
        obtain ⟨x, hx⟩ := (h1.all r).1 hr'
        rw [hfile r hr' x hx] at hc
        cases hc
        exact hx
      · rw [hc] at he; cases he
  · obtain ⟨r', hr', he⟩ := hnew r hrne (by rw [hc]; simp)
    obtain ⟨x, hx⟩ := (h1.all r').1 hr'
    by_cases hrr : r = r'
    · subst hrr
      rw [hfile r hr' x hx] at hc
      cases hc
    · rcases he with he | ⟨he, _⟩
      · exact absurd he hrr
      · refine ⟨hB.grown _ _ (by rw [hx]; simp) ((List.prefix_append_right_inj input).2 he) (fun h' => hrr (List.append_cancel_left h')),
          r', x, he, hx⟩
  · rintro ⟨hdir, r', c, hpre, hc⟩
    refine hgd (out ++ r') _ (by rw [hfile r' ((h1.all r').2 ⟨c, hc⟩) c hc]; simp) ((List.prefix_append_right_inj out).2 hpre) ?_
    intro h'
    rw [List.append_cancel_left h', hc] at hdir
    cases hdir

/-- C99, a single file: packed alone and extracted to a directory where nothing has its name, it is there with its content, and
nothing else on the disk is any different. -/
theorem C99_single (C : Codec) (hC : Lawful C) {t : Tree} (hB : Browsable t) {up : List Bytes} {name x : Bytes}
    (hx : t.fs (up ++ [name]) = some (.file x)) (n : Nat) (evs : Nat → List Ev) (sink : Sink)
    (h : cliCompress C t n (up ++ [name]) (render (up ++ [name])) [] evs = .done sink)
    (hlast : LastEnd sink.bytes (sink.bytes.length - 22))
    (hloc : HasLocator sink.bytes (sink.bytes.length - 22) →
      (runArchive C (.new ⟨[], 0, 0⟩) (packCalls evs 0 [(name, x)]) (evs 1)).2.2.isZip64 = true)
    (hsize : sink.bytes.length < 2 ^ 64)
    (hsmall : sink.bytes.length ≤ 0xFFFFFFFF ∨
      (UInt64.ofNat x.length ≠ 0xFFFFFFFF ∧ ∀ z, StoredAs C .deflate .default x z → UInt64.ofNat z.length ≠ 0xFFFFFFFF))
    (b : Build) (hb : 1 ≤ b.maxVecEntries) {san : Bytes → Bytes} (hsan : Sanitizes san) (hkeep : san name = name ∧ (0x5C : UInt8) ∉ name)
    {out : List Bytes} (ho : ∀ c ∈ out, PathPart c) (fs : FS) (hg : Grown fs) (hr : Rooted fs out)
    (hfree : fs (out ++ [name]) = none) (pos : Nat) (log : List RdEvent) :
    ∃ d', unzipFile b C san (render out) ⟨sink.bytes, pos, none, log⟩ ⟨fs, []⟩ = (true, d') ∧
      ∀ q, d'.fs q = if q = out ++ [name] then some (.file x) else fs q := by
  obtain ⟨hu, hp⟩ := (C98_single hB C hx n evs sink).1 h
  obtain ⟨h3, h4⟩ := hp
  rw [List.length_singleton] at h3 h4
  have hpart : ∀ c ∈ [name], PathPart c := fun c hc => hB.parts _ (by rw [hx]; simp) c (List.mem_append_right _ hc)
  have htame : ∀ c ∈ [name], Tame san c := fun c hc => by
    rw [List.mem_singleton.1 hc]
    exact ⟨hkeep.1, hkeep.2⟩
  have htarget : target san name = [name] := target_joined (by simp) hpart htame
  have hcom : archiveComment (packCalls evs 0 [(name, x)]) = [] := by
    unfold archiveComment
    rw [packCalls_comment]
  have hops : (runArchive C (.new ⟨[], 0, 0⟩) (packCalls evs 0 [(name, x)]) (evs 1)).1.length = [(name, x)].length := by
    rw [← packCalls_length evs [(name, x)] 0]
    exact runOps_length C (packCalls evs 0 [(name, x)]) (.new ⟨[], 0, 0⟩)
  have hclear : ∀ q y, q <+: out ++ [name] → fs q ≠ some (.file y) := by
    intro q y hq hqy
    rcases List.prefix_concat_iff.1 hq with rfl | hq
    · rw [hfree] at hqy; cases hqy
    · rw [hr q hq] at hqy; cases hqy
  obtain ⟨d', g1, g2, g3, g4⟩ := C82_packed C hC ⟨[], 0, 0⟩ sink (.new ⟨[], 0, 0⟩) .new rfl _ _ h3
    { own := fun op hop f hf => by
        obtain ⟨x, _, ev, rfl⟩ := packCalls_mem hop
        cases hf
      comment := by rw [hcom]; decide
      last := by rw [hcom]; exact hlast
      locator := by rw [hcom]; exact hloc
      count := fun r hr => by rw [h4 r hr]; exact fun h' => by cases h'
      size := hsize }
    (hsmall.imp_right fun hx' ls hl => program_sizes (P := fun n => n ≠ 0xFFFFFFFF) hl fun y hy => by
      rw [List.mem_singleton.1 hy]
      exact hx')
    (fun hf => by cases hf) [(name, x)]
    (packCalls_packs evs _ 0 _ (fun y hy => by
      rw [List.mem_singleton.1 hy]
      exact ⟨(utf8Valid_iff _).2 hu, (hpart name (by simp)).1⟩) hops h4)
    b hb hsan ho fs hg hr
    (fun y hy => by
      rw [List.mem_singleton.1 hy]
      refine ⟨fun q c hq => hclear q c ?_, fun _ => ⟨lastPiece_joined (r := [name]) (by simp) hpart htame, ?_⟩⟩
      · simp only at hq
        rw [htarget] at hq
        exact hq
      · simp only
        rw [htarget]
        exact hfree)
    (List.pairwise_singleton _ _) pos log
  refine ⟨d', g1, fun q => ?_⟩
  have hfile := g4 (name, x) (by simp)
  simp only at hfile
  rw [htarget, if_neg (show name.getLast? ≠ some 0x2F from (joined_last (r := [name]) (by simp) hpart).1)] at hfile
  by_cases hq : q = out ++ [name]
  · rw [if_pos hq, hq, hfile]
  · rw [if_neg hq]
    cases hfq : fs q with
    | some v => rw [g2.kept q v hfq]
    | none =>
      by_contra hne
      obtain ⟨u, hu', hcase⟩ := g3 q hfq hne
      rw [List.map_singleton, List.mem_singleton] at hu'
      subst hu'
      simp only at hcase
      rw [htarget] at hcase
      rcases hcase with hcase | ⟨hcase, _⟩
      · exact hq hcase
      · rcases List.prefix_concat_iff.1 hcase with h' | h'
        · exact hq h'
        · rw [hr q h'] at hfq; cases hfq

namespace Samples

/-- The sample directory is packed so that it can be read. -/
theorem home_last : LastEnd (Sink.mk homeBytes 0 0).bytes ((Sink.mk homeBytes 0 0).bytes.length - 22) := lastEnd_of_decide (by unfold OccursAt; decide +kernel)

theorem home_locator : ¬ HasLocator (Sink.mk homeBytes 0 0).bytes ((Sink.mk homeBytes 0 0).bytes.length - 22) := by
  unfold HasLocator
  decide +kernel

theorem wash_letter {c : Bytes} (h : c = [97] ∨ c = [98] ∨ c = [100]) : wash c = c ∧ (0x5C : UInt8) ∉ c := by
  rcases h with rfl | rfl | rfl <;> decide

theorem home_restored (b : Build) (hb : 2 ≤ b.maxVecEntries) : ∃ d',
    unzipFile b markCodec wash (render [[111]]) ⟨homeBytes, 0, none, []⟩ ⟨disk, []⟩ = (true, d') ∧ Contained [[111]] disk d'.fs ∧
      Restored home.fs [[104]] d'.fs [[111]] := by
  have hcount : ∀ rels, AllFiles home.fs [[104]] rels → rels.length ≤ 2 := by
    intro rels h
    have hm := fun r => (home_files h r).1
    have ho := h.once
    match rels, hm, ho with
    | [], _, _ => exact Nat.zero_le _
    | [_], _, _ => exact Nat.le_succ _
    | [_, _], _, _ => exact Nat.le_refl _
    | a :: b :: c :: l, hm, ho =>
      exfalso
      have h1 := hm a (by simp)
      have h2 := hm b (by simp)
      have h3 := hm c (by simp)
      simp only [List.nodup_cons, List.mem_cons, not_or] at ho
      rcases h1 with rfl | rfl <;> rcases h2 with rfl | rfl <;> rcases h3 with rfl | rfl <;> simp at ho
  refine C99_restored_partial markCodec markCodec_lawful home_browsable (by simp) rfl 3 [] (fun _ => eager) ⟨homeBytes, 0, 0⟩
    home_packed home_last (fun h => absurd h home_locator) (by decide +kernel) (Or.inl (by decide +kernel)) b
    (fun rels h => Nat.le_trans (hcount rels h) hb) wash_sanitizes ?_ o_plain disk disk_grown disk_rooted ?_ 0 []
  · intro r x hx c hc
    obtain ⟨y, hy, he⟩ := treeOf_mem (l := [([], .dir), ([[104]], .dir), ([[104], [97]], .file [1, 2]), ([[104], [100]], .dir),
      ([[104], [100], [98]], .file [7]), ([[104], [101]], .dir)]) (q := [[104]] ++ r) (by
        show home.fs ([[104]] ++ r) ≠ none
        rw [hx]; simp)
    simp only [List.mem_cons, List.not_mem_nil, or_false] at hy
    rcases hy with rfl | rfl | rfl | rfl | rfl | rfl
    · cases he
    · rw [← he] at hx; cases hx
    · simp at he
      subst he
      exact wash_letter (by simpa using Or.inl hc)
    · rw [← he] at hx; cases hx
    · simp at he
      subst he
      rw [List.mem_cons, List.mem_singleton] at hc
      exact wash_letter (hc.elim (fun h => Or.inr (Or.inr h)) fun h => Or.inr (Or.inl h))
    · rw [← he] at hx; cases hx
  · intro r hr
    refine if_neg ?_
    rintro (h | h)
    · cases h
    · exact hr (by simpa using h)

end Samples

/-- C99: packing `/h` and unpacking it in `/o`. -/
example (b : Build) (hb : 2 ≤ b.maxVecEntries) : ∃ d',
    unzipFile b Samples.markCodec Samples.wash (render [[111]]) ⟨Samples.homeBytes, 0, none, []⟩ ⟨Samples.disk, []⟩ = (true, d') ∧
    d'.fs [[111], [97]] = some (.file [1, 2]) ∧ d'.fs [[111], [100]] = some .dir ∧ d'.fs [[111], [100], [98]] = some (.file [7]) := by
  obtain ⟨d', h1, _, h2⟩ := Samples.home_restored b hb
  exact ⟨d', h1, (h2.files [[97]] [1, 2]).2 rfl, (h2.dirs [[100]] (by simp)).2 ⟨rfl, [[100], [98]], [7], ⟨[[98]], rfl⟩, rfl⟩,
    (h2.files [[100], [98]] [7]).2 rfl⟩

namespace Samples

/-- The file `/h/a`, packed alone. -/
def aloneBytes : Bytes :=
  [80, 75, 3, 4, 20, 0, 0, 8, 8, 0, 0, 0, 0, 0, 146, 66, 204, 182, 5, 0, 0, 0, 2, 0, 0, 0, 1, 0, 0, 0, 97, 1, 1, 1, 2, 0, 80, 75, 1,
   2, 63, 3, 20, 0, 0, 8, 8, 0, 0, 0, 0, 0, 146, 66, 204, 182, 5, 0, 0, 0, 2, 0, 0, 0, 1, 0, 0, 0, 0, 0, 0, 0, 0, 0, 0, 0, 0, 0, 0, 0,
   0, 0, 97, 80, 75, 5, 6, 0, 0, 0, 0, 1, 0, 1, 0, 47, 0, 0, 0, 36, 0, 0, 0, 0, 0]

theorem alone_packed :
    cliCompress markCodec home 0 ([[104]] ++ [[97]]) (render ([[104]] ++ [[97]])) [] (fun _ => eager) = .done ⟨aloneBytes, 0, 0⟩ := by
  decide +kernel

theorem alone_last : LastEnd (Sink.mk aloneBytes 0 0).bytes ((Sink.mk aloneBytes 0 0).bytes.length - 22) :=
  lastEnd_of_decide (by unfold OccursAt; decide +kernel)

theorem alone_locator : ¬ HasLocator (Sink.mk aloneBytes 0 0).bytes ((Sink.mk aloneBytes 0 0).bytes.length - 22) := by
  unfold HasLocator
  decide +kernel

end Samples

/-- C99: packing `/h/a` and unpacking it in `/o`. -/
example (b : Build) (hb : 1 ≤ b.maxVecEntries) : ∃ d',
    unzipFile b Samples.markCodec Samples.wash (render [[111]]) ⟨Samples.aloneBytes, 0, none, []⟩ ⟨Samples.disk, []⟩ = (true, d') ∧
    d'.fs [[111], [97]] = some (.file [1, 2]) ∧ d'.fs [[111], [98]] = none := by
  obtain ⟨d', h1, h2⟩ := C99_single Samples.markCodec Samples.markCodec_lawful Samples.home_browsable (up := [[104]]) (name := [97])
    (x := [1, 2]) rfl 0 (fun _ => Samples.eager) ⟨Samples.aloneBytes, 0, 0⟩ Samples.alone_packed Samples.alone_last
    (fun h => absurd h Samples.alone_locator) (by decide +kernel) (Or.inl (by decide +kernel)) b hb Samples.wash_sanitizes
    (Samples.wash_letter (Or.inl rfl)) Samples.o_plain Samples.disk Samples.disk_grown Samples.disk_rooted rfl 0 []
  exact ⟨d', h1, h2 _, h2 _⟩

/-- C99 for directories: a directory with nothing in it is not restored. (`walk_dir` lists files only.) -/
theorem C99_empty_directories_fails : ∃ (t : Tree) (bytes : Bytes) (out : List Bytes) (fs : FS) (san : Bytes → Bytes), Browsable t ∧
    cliCompress Samples.markCodec t 3 [[104]] (render [[104]]) [] (fun _ => Samples.eager) = .done ⟨bytes, 0, 0⟩ ∧
    t.fs [[104], [101]] = some .dir ∧ ∀ b : Build, 2 ≤ b.maxVecEntries → ∃ d',
      unzipFile b Samples.markCodec san (render out) ⟨bytes, 0, none, []⟩ ⟨fs, []⟩ = (true, d') ∧ d'.fs (out ++ [[101]]) = none := by
  refine ⟨Samples.home, Samples.homeBytes, [[111]], Samples.disk, Samples.wash, Samples.home_browsable, Samples.home_packed, rfl,
    fun b hb => ?_⟩
  obtain ⟨d', h1, _, h2⟩ := Samples.home_restored b hb
  refine ⟨d', h1, ?_⟩
  cases hx : d'.fs ([[111]] ++ [[101]]) with
  | none => rfl
  | some x =>
    cases x with
    | file c =>
      have := (h2.files [[101]] c).1 hx
      cases this
    | dir =>
      obtain ⟨_, r', c, hpre, hc⟩ := (h2.dirs [[101]] (by simp)).1 hx
      obtain ⟨y, hy, he⟩ := Samples.treeOf_mem (l := [([], .dir), ([[104]], .dir), ([[104], [97]], .file [1, 2]), ([[104], [100]], .dir),
        ([[104], [100], [98]], .file [7]), ([[104], [101]], .dir)]) (q := [[104]] ++ r') (by
          show Samples.home.fs ([[104]] ++ r') ≠ none
          rw [hc]; simp)
      obtain ⟨u, rfl⟩ := hpre
      simp only [List.mem_cons, List.not_mem_nil, or_false] at hy
      rcases hy with rfl | rfl | rfl | rfl | rfl | rfl
      · cases he
      · simp at he
      · simp at he
      · simp at he
      · simp at he
      · rw [← he] at hc; cases hc

end AsyncZip
