import Verif.Spec.Extract
import Verif.Proofs.Sessions
/-!
# Helper lemmas about extracting archives
-/

namespace AsyncZip

open Spec

/-! ## Splitting names and paths -/

theorem splitSlash_ne_nil : ∀ p : Bytes, splitSlash p ≠ []
  | [] => by simp [splitSlash]
  | b :: bs => by
    unfold splitSlash
    split
    · simp
    · split <;> simp

theorem splitSlash_cons_ne {b : UInt8} (hb : b ≠ 0x2F) {bs : Bytes} {p : Bytes} {ps : List Bytes} (h : splitSlash bs = p :: ps) :
    splitSlash (b :: bs) = (b :: p) :: ps := by
  rw [splitSlash, if_neg hb, h]

theorem splitSlash_flat : ∀ {c : Bytes}, 0x2F ∉ c → splitSlash c = [c]
  | [], _ => rfl
  | b :: bs, h => by
    rw [List.mem_cons, not_or] at h
    exact splitSlash_cons_ne (fun h' => h.1 h'.symm) (splitSlash_flat h.2)

theorem splitSlash_append : ∀ (p c : Bytes), splitSlash (p ++ 0x2F :: c) = splitSlash p ++ splitSlash c
  | [], c => by rw [List.nil_append]; exact if_pos rfl
  | b :: bs, c => by
    have ih := splitSlash_append bs c
    rw [List.cons_append]
    by_cases hb : b = 0x2F
    · rw [splitSlash, if_pos hb, ih, splitSlash, if_pos hb, List.cons_append]
    · cases h : splitSlash bs with
      | nil => exact absurd h (splitSlash_ne_nil _)
      | cons q qs =>
        rw [h, List.cons_append] at ih
        rw [splitSlash_cons_ne hb ih, splitSlash_cons_ne hb h, List.cons_append]

theorem split_names (name : Bytes) :
    splitSlash (replaceBackslash name) = name.splitOnP fun b => b = 0x2F ∨ b = 0x5C := by
  induction name with
  | nil => rfl
  | cons b bs ih =>
    rw [List.splitOnP_cons_eq_if_modifyHead, ← ih]
    unfold replaceBackslash
    rw [List.map_cons]
    by_cases h1 : b = 0x5C
    · rw [if_pos h1, splitSlash, if_pos rfl, if_pos (by simp [h1])]
    · rw [if_neg h1]
      by_cases h2 : b = 0x2F
      · rw [splitSlash, if_pos h2, if_pos (by simp [h2])]
      · rw [if_neg (by simp [h1, h2])]
        cases h : splitSlash (bs.map fun b => if b = 0x5C then 0x2F else b) with
        | nil => exact absurd h (splitSlash_ne_nil _)
        | cons q qs => rw [splitSlash_cons_ne h2 h]; rfl

/-- The components that count. -/
def solid (cs : List Bytes) : List Bytes := cs.filter fun c => c ≠ [] ∧ c ≠ [0x2E]

theorem of_comps (p : Bytes) : (OsPath.of p).comps = solid (splitSlash p) := rfl

theorem solid_append (a b : List Bytes) : solid (a ++ b) = solid a ++ solid b := List.filter_append ..

theorem comps_push {p c : Bytes} (hc : c.head? ≠ some 0x2F) :
    (OsPath.of (pathPush p c)).comps = (OsPath.of p).comps ++ (OsPath.of c).comps := by
  simp only [of_comps]
  unfold pathPush
  rw [if_neg hc]
  by_cases h1 : p = []
  · rw [if_pos (Or.inl h1), h1]; rfl
  · by_cases h2 : p.getLast? = some 0x2F
    · rw [if_pos (Or.inr h2)]
      obtain ⟨q, rfl⟩ : ∃ q, p = q ++ [0x2F] := ⟨p.dropLast, by
        rw [List.getLast?_eq_some_getLast h1, Option.some.injEq] at h2
        rw [← h2, List.dropLast_concat_getLast h1]⟩
      rw [List.append_assoc, List.singleton_append, splitSlash_append, splitSlash_append, solid_append, solid_append]
      rw [show solid (splitSlash []) = [] from rfl, List.append_nil]
    · rw [if_neg (by simp [h1, h2]), splitSlash_append, solid_append]

theorem head_flat {c : Bytes} (h : 0x2F ∉ c) : c.head? ≠ some 0x2F := fun h' => h (List.mem_of_mem_head? h')

theorem pathPush_head {p c : Bytes} (hp : p.head? ≠ some 0x2F) (hc : 0x2F ∉ c) : (pathPush p c).head? ≠ some 0x2F := by
  unfold pathPush
  rw [if_neg (head_flat hc)]
  cases p with
  | nil => simpa using head_flat hc
  | cons b bs => split <;> simpa using hp

theorem foldl_head : ∀ (cs : List Bytes) (p : Bytes), (∀ c ∈ cs, 0x2F ∉ c) → p.head? ≠ some 0x2F →
    (cs.foldl pathPush p).head? ≠ some 0x2F
  | [], _, _, h => h
  | c :: cs, _, h, h' => foldl_head cs _ (fun c' hc' => h c' (List.mem_cons_of_mem _ hc'))
      (pathPush_head h' (h c List.mem_cons_self))

theorem comps_foldl : ∀ (cs : List Bytes) (p : Bytes), (∀ c ∈ cs, 0x2F ∉ c) →
    (OsPath.of (cs.foldl pathPush p)).comps = (OsPath.of p).comps ++ solid cs
  | [], _, _ => by rw [List.foldl_nil, show solid [] = [] from rfl, List.append_nil]
  | c :: cs, p, h => by
    rw [List.foldl_cons, comps_foldl cs _ fun c' hc' => h c' (List.mem_cons_of_mem _ hc'),
      comps_push (head_flat (h c List.mem_cons_self)), of_comps c, splitSlash_flat (h c List.mem_cons_self),
      List.append_assoc, ← solid_append, List.singleton_append]

theorem sanitized {san : Bytes → Bytes} (hs : Sanitizes san) {name : Bytes} :
    (OsPath.of (sanitizeFilePath san name)).comps = target san name ∧ (sanitizeFilePath san name).head? ≠ some 0x2F := by
  have hf : ∀ c ∈ (splitSlash (replaceBackslash name)).map san, 0x2F ∉ c := by
    intro c hc
    obtain ⟨s, _, rfl⟩ := List.mem_map.1 hc
    exact hs.flat s
  refine ⟨?_, foldl_head _ _ hf (by simp)⟩
  unfold sanitizeFilePath
  rw [comps_foldl _ _ hf, show (OsPath.of []).comps = [] from rfl, List.nil_append, split_names, target, solid]
  refine List.filter_congr fun c hc => ?_
  obtain ⟨s, _, rfl⟩ := List.mem_map.1 hc
  simp [(hs.named s).1]

theorem target_plain {san : Bytes → Bytes} (hs : Sanitizes san) {name : Bytes} : ∀ c ∈ target san name, PathPart c := by
  intro c hc
  obtain ⟨h1, h2⟩ := List.mem_filter.1 hc
  obtain ⟨s, _, rfl⟩ := List.mem_map.1 h1
  exact ⟨by simpa using h2, hs.flat s, hs.named s⟩

theorem comps_flatMap : ∀ cs : List Bytes, (∀ c ∈ cs, PathPart c) → solid (splitSlash (cs.flatMap (0x2F :: ·))) = cs
  | [], _ => rfl
  | c :: cs, h => by
    have ih := comps_flatMap cs fun c' hc' => h c' (List.mem_cons_of_mem _ hc')
    obtain ⟨h1, h2, h3, _⟩ := h c List.mem_cons_self
    have hsol : solid [c] = [c] := by simp [solid, h1, h3]
    cases cs with
    | nil =>
      rw [List.flatMap_cons, List.flatMap_nil, List.append_nil, splitSlash, if_pos rfl, splitSlash_flat h2]
      exact hsol
    | cons c' cs =>
      rw [List.flatMap_cons, List.cons_append, List.flatMap_cons, List.cons_append, splitSlash, if_pos rfl,
        splitSlash_append, splitSlash_flat h2]
      rw [List.flatMap_cons, List.cons_append, splitSlash, if_pos rfl] at ih
      rw [show ∀ x : List Bytes, [] :: ([c] ++ x) = [[]] ++ ([c] ++ x) from fun _ => rfl, solid_append, solid_append, hsol]
      rw [show ∀ x : List Bytes, [] :: x = [[]] ++ x from fun _ => rfl, solid_append] at ih
      rw [show solid [[]] = [] from rfl, List.nil_append] at ih ⊢
      rw [ih]; rfl

theorem comps_render {out : List Bytes} (h : ∀ c ∈ out, PathPart c) : (OsPath.of (render out)).comps = out := by
  unfold render
  split
  · rename_i h0; rw [h0]; rfl
  · exact comps_flatMap out h

theorem resolve_plain {p : OsPath} (h : ∀ c ∈ p.comps, PathPart c) : p.resolve = p.comps := by
  have key : ∀ (cs acc : List Bytes), (∀ c ∈ cs, PathPart c) →
      cs.foldl (fun at_ c => if c = [0x2E, 0x2E] then at_.dropLast else at_ ++ [c]) acc = acc ++ cs := by
    intro cs
    induction cs with
    | nil => intro acc _; simp
    | cons c cs ih =>
      intro acc h
      rw [List.foldl_cons, if_neg (h c List.mem_cons_self).2.2.2, ih _ fun c' hc' => h c' (List.mem_cons_of_mem _ hc')]
      simp
  exact key _ _ h

/-- Where an entry goes. -/
theorem entry_path {san : Bytes → Bytes} (hs : Sanitizes san) {out : List Bytes} (ho : ∀ c ∈ out, PathPart c) (name : Bytes) :
    (OsPath.of (pathPush (render out) (sanitizeFilePath san name))).comps = out ++ target san name ∧
    (∀ c ∈ out ++ target san name, PathPart c) := by
  obtain ⟨h1, h2⟩ := sanitized hs (name := name)
  refine ⟨by rw [comps_push h2, h1, comps_render ho], fun c hc => ?_⟩
  rcases List.mem_append.1 hc with hc | hc
  · exact ho c hc
  · exact target_plain hs c hc

/-! ## What the operations on the disk do -/

theorem Contained.refl (out : List Bytes) (fs : FS) : Contained out fs fs := ⟨fun _ _ => rfl, fun _ _ h => h⟩

theorem Contained.trans {out : List Bytes} {a b c : FS} (h : Contained out a b) (h' : Contained out b c) : Contained out a c :=
  ⟨fun q hq => (h'.outside q hq).trans (h.outside q hq), fun q n hq => h'.kept q n (h.kept q n hq)⟩

theorem Contained.rooted {out : List Bytes} {a b : FS} (h : Contained out a b) (hr : Rooted a out) : Rooted b out :=
  fun q hq => h.kept q _ (hr q hq)

/-- What is not there, on the way to something below the directory, is below it. -/
theorem Rooted.below {fs : FS} {out q t : List Bytes} (hr : Rooted fs out) (hq : q <+: out ++ t) (hn : fs q = none) :
    Below out q := by
  have h1 : ¬ q <+: out := fun h => by rw [hr q h] at hn; cases hn
  rcases List.prefix_or_prefix_of_prefix hq (List.prefix_append out t) with h | h
  · exact absurd h h1
  · exact ⟨h, fun h' => h1 (h' ▸ List.prefix_refl _)⟩

theorem contained_makeDirs {fs : FS} {out q t : List Bytes} (hr : Rooted fs out) (hq : q <+: out ++ t) :
    Contained out fs (makeDirs fs q) := by
  constructor
  · intro r hb
    unfold makeDirs
    rw [if_neg]
    rintro ⟨h1, h2⟩
    exact hb (Rooted.below hr (h1.trans hq) h2)
  · intro r n hn
    unfold makeDirs
    rw [if_neg (by rw [hn]; simp), hn]

theorem contained_createDirAll {d : Disk} {p : OsPath} {out t : List Bytes} (hr : Rooted d.fs out)
    (hq : p.resolve <+: out ++ t) : Contained out d.fs (d.createDirAll p).2.fs := by
  unfold Disk.createDirAll
  split
  · exact Contained.refl _ _
  · split
    · exact contained_makeDirs hr hq
    · exact contained_makeDirs hr ((List.take_prefix _ _).trans hq)

theorem contained_file {fs : FS} {out t : List Bytes} (hr : Rooted fs out) (hn : fs (out ++ t) = none) (c : Bytes) :
    Contained out fs fun r => if r = out ++ t then some (.file c) else fs r := by
  constructor
  · intro r hb
    show (if r = out ++ t then _ else _) = _
    rw [if_neg]
    rintro rfl
    exact hb (Rooted.below hr (List.prefix_refl _) hn)
  · intro r n h
    show (if r = out ++ t then _ else _) = _
    rw [if_neg, h]
    rintro rfl
    rw [hn] at h; cases h

/-- Creating a new file: nothing was there. -/
theorem createNew_ok {d : Disk} {p : OsPath} (h : (d.createNew p).1 = true) :
    d.fs p.resolve = none ∧ d.fs p.resolve.dropLast = some .dir ∧ p.slash = false ∧
    (d.createNew p).2.fs = fun r => if r = p.resolve then some (.file []) else d.fs r := by
  unfold Disk.createNew at h ⊢
  split at h
  · cases h
  · rename_i hc
    rw [if_neg hc]
    simp only [not_or, ne_eq, Decidable.not_not, Bool.not_eq_true] at hc
    split at h
    · exact ⟨hc.2.1, hc.2.2, hc.1, by simp only [*]; rfl⟩
    · cases h

theorem createNew_failed {d : Disk} {p : OsPath} (h : (d.createNew p).1 = false) : (d.createNew p).2.fs = d.fs := by
  unfold Disk.createNew at h ⊢
  split at h
  · rename_i hc; rw [if_pos hc]; rfl
  · rename_i hc
    rw [if_neg hc]
    split at h
    · cases h
    · simp only [*]; rfl

theorem write_fs (d : Disk) (p : OsPath) (b : Bytes) :
    ∃ c, (d.write p b).2.fs = (fun r => if r = p.resolve then some (.file c) else d.fs r) ∧ ((d.write p b).1 = true → c = b) := by
  unfold Disk.write
  split
  · exact ⟨b, rfl, fun _ => rfl⟩
  · exact ⟨b.take _, rfl, fun h => by cases h⟩

theorem copyOut_fs (C : Codec) (er : EntryReader) (p : OsPath) (s : RState) (d : Disk) :
    ∃ c, (copyOut C er p s d).2.2.fs = fun r => if r = p.resolve then some (.file c) else d.fs r := by
  unfold copyOut
  split
  · exact (write_fs d p _).imp fun _ h => h.1
  · exact (write_fs d p _).imp fun _ h => h.1

theorem contained_extractFile (C : Codec) (er : EntryReader) {p : OsPath} (s : RState) {d : Disk} {out t : List Bytes}
    (hr : Rooted d.fs out) (hp : p.comps = out ++ t) (hpl : ∀ c ∈ out ++ t, PathPart c) :
    Contained out d.fs (extractFile C er p s d).2.2.fs := by
  have hres : p.resolve = out ++ t := by rw [resolve_plain (by rw [hp]; exact hpl), hp]
  unfold extractFile
  split
  · exact Contained.refl _ _
  · rename_i parent hpar
    have hpres : parent.resolve <+: out ++ t := by
      unfold OsPath.parent at hpar
      split at hpar
      · cases hpar
      · rw [Option.some.injEq] at hpar
        subst hpar
        rw [resolve_plain]
        · show p.comps.dropLast <+: _
          rw [hp]; exact List.dropLast_prefix _
        · intro c hc
          exact hpl c (by rw [← hp]; exact (List.dropLast_sublist _).subset hc)
    have hm : Contained out d.fs (if d.stat parent = some .dir then (true, d) else d.createDirAll parent).2.fs := by
      split
      · exact Contained.refl _ _
      · exact contained_createDirAll hr hpres
    generalize (if d.stat parent = some .dir then (true, d) else d.createDirAll parent) = m at hm ⊢
    simp only
    split
    · split
      · rename_i hn
        obtain ⟨h1, _, _, h4⟩ := createNew_ok hn
        obtain ⟨c, hc⟩ := copyOut_fs C er p s (m.2.createNew p).2
        rw [hc, h4]
        refine Contained.trans hm ?_
        rw [hres] at h1 ⊢
        have := contained_file (Contained.rooted hm hr) h1 c
        refine ⟨fun q hq => ?_, fun q n hq => ?_⟩
        · rw [← this.outside q hq]; dsimp only; split <;> rfl
        · rw [← this.kept q n hq]; dsimp only; split <;> rfl
      · rename_i hn
        rw [createNew_failed (by simpa using hn)]
        exact hm
    · exact hm

theorem contained_entry (C : Codec) {san : Bytes → Bytes} (hs : Sanitizes san) {out : List Bytes} (ho : ∀ c ∈ out, PathPart c)
    (f : ZipFile) (index : Nat) (e : ZipEntry) (s : RState) {d : Disk} (hr : Rooted d.fs out) :
    Contained out d.fs (extractEntry C san (render out) f index e s d).2.2.fs := by
  unfold extractEntry
  split
  · exact Contained.refl _ _
  · rename_i name _
    obtain ⟨h1, h2⟩ := entry_path hs ho name
    simp only
    split
    · exact Contained.refl _ _
    · split
      · exact Contained.refl _ _
      · split
        · split
          · exact Contained.refl _ _
          · exact contained_createDirAll (t := target san name) hr (by
              rw [resolve_plain (by rw [h1]; exact h2), h1]; exact List.prefix_refl _)
        · exact contained_extractFile C _ _ hr h1 h2

theorem contained_loop (C : Codec) {san : Bytes → Bytes} (hs : Sanitizes san) {out : List Bytes} (ho : ∀ c ∈ out, PathPart c)
    (f : ZipFile) : ∀ (es : List StoredZipEntry) (index : Nat) (s : RState) (d : Disk), Rooted d.fs out →
    Contained out d.fs (extractLoop C san (render out) f es index s d).2.2.fs
  | [], _, _, d, _ => Contained.refl _ _
  | e :: es, index, s, d, hr => by
    have h := contained_entry C hs ho f index e.entry s hr
    unfold extractLoop
    split
    · rename_i s' d' he
      rw [he] at h
      exact Contained.trans h (contained_loop C hs ho f es _ s' d' (Contained.rooted h hr))
    · rename_i s' d' he
      rw [he] at h
      exact h

/-! ## What came of it -/

theorem assertSignature_keeps (e : UInt32) : Keeps (assertSignature e) :=
  Keeps.bind (readExact_keeps _) fun _ => Keeps.ite Keeps.pure Keeps.fail

theorem cdRecord_keeps (b : Build) : Keeps (cdRecord b) :=
  Keeps.bind (assertSignature_keeps _) fun _ => Keeps.bind (Keeps.bind (readExact_keeps _) fun _ => Keeps.pure) fun _ =>
    Keeps.bind (readBytes_keeps _) fun _ => Keeps.bind Keeps.lift fun _ => Keeps.bind (readBytes_keeps _) fun _ =>
    Keeps.bind Keeps.lift fun _ => Keeps.bind (readBytes_keeps _) fun _ => Keeps.pure

theorem cdLoop_keeps (b : Build) (n : Nat) : Keeps (cdLoop b n) := by
  induction n with
  | zero => exact Keeps.pure
  | succ n ih => exact Keeps.bind (cdRecord_keeps b) fun _ => Keeps.bind ih fun _ => Keeps.pure

theorem combined_keeps (b : Build) (off : Nat) (e : EndOfCentralDirectoryHeader) : Keeps (readCombined b off e) := by
  unfold readCombined
  refine Keeps.ite Keeps.pure (Keeps.bind (seekTo_keeps _) fun _ => Keeps.bind ?_ fun l => ?_)
  · exact Keeps.bind (readExact_keeps _) fun _ => Keeps.ite Keeps.pure (Keeps.bind (readExact_keeps _) fun _ => Keeps.pure)
  · split
    · exact Keeps.bind Keeps.lift fun _ => Keeps.bind (seekTo_keeps _) fun _ =>
        Keeps.bind (Keeps.bind (readExact_keeps _) fun _ => Keeps.pure) fun _ => Keeps.pure
    · exact Keeps.pure

theorem openFile_keeps (b : Build) : Keeps (openFile b) := by
  unfold openFile
  refine Keeps.bind locateEocdr_keeps fun _ => Keeps.bind (seekTo_keeps _) fun _ =>
    Keeps.bind (Keeps.bind (readExact_keeps _) fun _ => Keeps.pure) fun _ =>
    Keeps.bind (Keeps.bind (readBytes_keeps _) fun _ => Keeps.pure) fun _ =>
    Keeps.bind (combined_keeps b _ _) fun x => ?_
  obtain ⟨r, z⟩ := x
  exact Keeps.ite Keeps.fail (Keeps.bind (seekTo_keeps _) fun _ =>
    Keeps.bind (Keeps.ite Keeps.fail (cdLoop_keeps b _)) fun _ => Keeps.pure)

theorem readerWithoutEntry_keeps (f : ZipFile) (i : Nat) : Keeps (readerWithoutEntry f i) := by
  unfold readerWithoutEntry
  cases f.entries[i]? with
  | none => exact Keeps.fail
  | some e => exact Keeps.bind (seekToDataOffset_keeps e) fun _ => Keeps.pure

theorem readToEnd_data {C : Codec} {er er' : EntryReader} {n : Nat} {s s' : RState} {b : Bytes}
    (hr : er.readToEnd C n s = (.ok (b, er'), s')) : s'.data = s.data := by
  obtain ⟨t, er1, s1, hu, _, _, hl⟩ := readLoop_use _ er [] s rfl _ _ hr
  exact (read_ok hl).1.trans (use_spec hu).1

theorem getLast_split_slash {san : Bytes → Bytes} (hs : Sanitizes san) {out : List Bytes} {name : Bytes}
    (h : name.getLast? = some 0x2F) :
    (OsPath.of (pathPush (render out) (sanitizeFilePath san name))).slash = true := by
  have hne : name ≠ [] := by rintro rfl; cases h
  rw [List.getLast?_eq_some_getLast hne, Option.some.injEq] at h
  have hn : name = name.dropLast ++ [0x2F] := by rw [← h, List.dropLast_concat_getLast hne]
  have hrel : sanitizeFilePath san name = [] ∨ (sanitizeFilePath san name).getLast? = some 0x2F := by
    unfold sanitizeFilePath
    rw [hn]
    unfold replaceBackslash
    rw [List.map_append, show ([0x2F] : Bytes).map (fun b => if b = 0x5C then 0x2F else b) = 0x2F :: [] from rfl,
      splitSlash_append, List.map_append, List.foldl_append, show splitSlash [] = [[]] from rfl, List.map_cons, hs.nothing,
      List.map_nil, List.foldl_cons, List.foldl_nil]
    generalize List.foldl pathPush [] _ = p
    unfold pathPush
    rw [if_neg (by simp)]
    by_cases hp : p = [] ∨ p.getLast? = some 0x2F
    · rw [if_pos hp, List.append_nil]; exact hp
    · rw [if_neg hp]; right; simp
  have hout : render out ≠ [] := by
    unfold render
    split
    · simp
    · cases out with
      | nil => contradiction
      | cons c cs => simp
  show ((pathPush (render out) (sanitizeFilePath san name)).getLast? == some 0x2F) = true
  rw [beq_iff_eq]
  have hh := (sanitized hs (name := name)).2
  unfold pathPush
  rw [if_neg hh]
  rcases hrel with h0 | h0
  · rw [h0]
    split
    · rename_i h1
      rw [List.append_nil]
      exact h1.resolve_left hout
    · simp
  · split
    · rw [List.getLast?_append, h0]; rfl
    · rw [List.getLast?_append, List.getLast?_cons, h0]; rfl

theorem blocked_false {fs : FS} {q : List Bytes} (h : blocked fs q = false) {r : List Bytes} (hr : r <+: q) (c : Bytes) :
    fs r ≠ some (.file c) := by
  intro hf
  unfold blocked at h
  rw [List.any_eq_false] at h
  refine h r.length (List.mem_range.2 (by have := hr.length_le; omega)) ?_
  rw [← List.prefix_iff_eq_take.1 hr, hf]

theorem createDirAll_ok {d : Disk} {p : OsPath} (h : (d.createDirAll p).1 = true) :
    (d.createDirAll p).2.fs = makeDirs d.fs p.resolve ∧ blocked d.fs p.resolve = false := by
  unfold Disk.createDirAll at h ⊢
  split at h
  · cases h
  · rename_i hb
    rw [if_neg hb]
    split at h
    · exact ⟨by simp only [*]; rfl, by simpa using hb⟩
    · cases h

theorem makeDirs_self {fs : FS} {q : List Bytes} (h : blocked fs q = false) : makeDirs fs q q = some .dir := by
  unfold makeDirs
  cases hq : fs q with
  | none => rw [if_pos ⟨List.prefix_refl _, rfl⟩]
  | some n =>
    rw [if_neg (by simp)]
    cases n with
    | dir => rfl
    | file c => exact absurd hq (blocked_false h (List.prefix_refl _) c)

theorem makeDirs_new {fs : FS} {q r : List Bytes} (h : fs r = none) (h' : makeDirs fs q r ≠ none) :
    r <+: q ∧ makeDirs fs q r = some .dir := by
  unfold makeDirs at h' ⊢
  split at h'
  · rename_i hc; rw [if_pos hc]; exact ⟨hc.1, rfl⟩
  · exact absurd h h'

theorem copyOut_ok {C : Codec} {er : EntryReader} {p : OsPath} {s s' : RState} {d d' : Disk}
    (h : copyOut C er p s d = (true, s', d')) :
    ∃ b er', er.readToEnd C 8192 s = (.ok (b, er'), s') ∧
      d'.fs = fun r => if r = p.resolve then some (.file b) else d.fs r := by
  unfold copyOut at h
  split at h
  · rename_i b er' s1 hr
    simp only [Prod.mk.injEq] at h
    obtain ⟨h1, rfl, rfl⟩ := h
    obtain ⟨c, h2, h3⟩ := write_fs d p b
    exact ⟨b, er', hr, by rw [h2, h3 h1]⟩
  · cases h

/-- Extracting a file that succeeds. -/
theorem extractFile_ok {C : Codec} {er : EntryReader} {p : OsPath} {s s' : RState} {d d' : Disk} {q : List Bytes}
    (h : extractFile C er p s d = (true, s', d')) (hp : p.comps = q) (hpl : ∀ c ∈ q, PathPart c) :
    ∃ b er', er.readToEnd C 8192 s = (.ok (b, er'), s') ∧ d.fs q = none ∧ d'.fs q = some (.file b) ∧
      (∀ r, r ≠ q → d.fs r = none → d'.fs r ≠ none → r <+: q ∧ d'.fs r = some .dir) := by
  have hres : p.resolve = q := by rw [resolve_plain (by rw [hp]; exact hpl), hp]
  unfold extractFile at h
  split at h
  · cases h
  · rename_i parent hpar
    have hpres : parent.resolve <+: q := by
      unfold OsPath.parent at hpar
      split at hpar
      · cases hpar
      · rw [Option.some.injEq] at hpar
        subst hpar
        rw [resolve_plain]
        · show p.comps.dropLast <+: _
          rw [hp]; exact List.dropLast_prefix _
        · intro c hc
          exact hpl c (by rw [← hp]; exact (List.dropLast_sublist _).subset hc)
    have hm : ∀ r, ((if d.stat parent = some .dir then (true, d) else d.createDirAll parent).1 = true) → d.fs r = none →
        (if d.stat parent = some .dir then (true, d) else d.createDirAll parent).2.fs r ≠ none →
        r <+: q ∧ (if d.stat parent = some .dir then (true, d) else d.createDirAll parent).2.fs r = some .dir := by
      intro r
      split
      · intro _ h1 h2; exact absurd h1 h2
      · intro h0 h1 h2
        rw [(createDirAll_ok h0).1] at h2 ⊢
        obtain ⟨h3, h4⟩ := makeDirs_new h1 h2
        exact ⟨h3.trans hpres, h4⟩
    have hk : ∀ r, d.fs r ≠ none → (if d.stat parent = some .dir then (true, d) else d.createDirAll parent).1 = true →
        (if d.stat parent = some .dir then (true, d) else d.createDirAll parent).2.fs r = d.fs r := by
      intro r
      split
      · intro _ _; rfl
      · intro h0 h1
        rw [(createDirAll_ok h1).1]
        unfold makeDirs
        rw [if_neg (fun h' => h0 h'.2)]
    generalize (if d.stat parent = some .dir then (true, d) else d.createDirAll parent) = m at hm hk h
    simp only at h
    split at h
    · rename_i hm1
      split at h
      · rename_i hn
        obtain ⟨n1, _, _, n4⟩ := createNew_ok hn
        obtain ⟨b, er', c1, c2⟩ := copyOut_ok h
        rw [hres] at n1 n4 c2
        refine ⟨b, er', c1, ?_, ?_, fun r hrq h0 h1 => ?_⟩
        · cases hd : d.fs q with
          | none => rfl
          | some n =>
            have := hk q (by rw [hd]; simp) hm1
            rw [n1, hd] at this
            cases this
        · rw [c2]; exact if_pos rfl
        · have he : d'.fs r = m.2.fs r := by
            rw [c2]
            show (if r = q then _ else _) = _
            rw [if_neg hrq, n4]
            show (if r = q then _ else _) = _
            rw [if_neg hrq]
          rw [he] at h1 ⊢
          exact hm r hm1 h0 h1
      · cases h
    · cases h

theorem asStr_shape {z : ZipString} {name : Bytes} (h : z.asStr = .ok name) : z = ⟨.utf8, name, z.alternative⟩ := by
  obtain ⟨e, r, a⟩ := z
  cases e with
  | utf8 => cases h; rfl
  | raw => cases h

theorem dir_ok {e : ZipEntry} {name : Bytes} {isDir : Bool} (h : e.filename.asStr = .ok name) (h' : e.dir = .ok isDir) :
    isDir = (name.getLast? == some 0x2F) := by
  unfold ZipEntry.dir at h'
  rw [h] at h'
  cases h'
  rfl

/-- One entry that succeeds. -/
theorem extractEntry_ok {C : Codec} {san : Bytes → Bytes} (hs : Sanitizes san) {out : List Bytes} (ho : ∀ c ∈ out, PathPart c)
    {f : ZipFile} {index : Nat} {e : ZipEntry} {s s' : RState} {d d' : Disk}
    (h : extractEntry C san (render out) f index e s d = (true, s', d')) :
    ∃ name, Extracted C f san out s.data d.fs d'.fs index e name ∧ OnlyNew out [target san name] d.fs d'.fs ∧
      s'.data = s.data := by
  unfold extractEntry at h
  split at h
  · cases h
  · rename_i name hname
    obtain ⟨h1, h2⟩ := entry_path hs ho name
    have hres := resolve_plain (p := OsPath.of (pathPush (render out) (sanitizeFilePath san name))) (by rw [h1]; exact h2)
    rw [h1] at hres
    have hsl := getLast_split_slash hs (out := out) (name := name)
    generalize OsPath.of (pathPush (render out) (sanitizeFilePath san name)) = p at h h1 hres hsl
    simp only at h
    split at h
    · cases h
    · rename_i isDir hdir
      have hd := dir_ok hname hdir
      refine ⟨name, ?_⟩
      have hnm := asStr_shape hname
      split at h
      · cases h
      · rename_i er s1 hrd
        have hdata : s1.data = s.data := by
          have := (readerWithoutEntry_keeps f index s).1
          rw [hrd] at this
          exact this
        split at h
        · rename_i hisdir
          rw [hisdir] at hd
          have hd := (beq_iff_eq.1 hd.symm)
          split at h
          · rename_i hst
            simp only [Prod.mk.injEq, true_and] at h
            obtain ⟨rfl, rfl⟩ := h
            refine ⟨⟨hnm, fun _ => ?_, fun h' => absurd hd h'⟩, fun q hq hq' => absurd hq hq', hdata⟩
            unfold Disk.stat at hst
            rw [hres] at hst
            split at hst
            · rename_i c hc
              rw [if_pos (hsl hd)] at hst
              exact absurd rfl hst
            · rename_i hnf
              cases hn : d.fs (out ++ target san name) with
              | none => exact absurd hn hst
              | some n =>
                cases n with
                | dir => rfl
                | file c => exact absurd hn (hnf c)
          · simp only [Prod.mk.injEq] at h
            obtain ⟨g1, rfl, rfl⟩ := h
            obtain ⟨g2, g3⟩ := createDirAll_ok g1
            rw [hres] at g2 g3
            refine ⟨⟨hnm, fun _ => by rw [g2]; exact makeDirs_self g3, fun h' => absurd hd h'⟩, fun q hq hq' => ?_, hdata⟩
            rw [g2] at hq' ⊢
            exact ⟨_, List.mem_singleton_self _, Or.inr (makeDirs_new hq hq')⟩
        · rename_i hisdir
          have hd : name.getLast? ≠ some 0x2F := by
            rw [Bool.not_eq_true] at hisdir
            rw [hisdir] at hd
            exact fun h' => by rw [h'] at hd; cases hd
          obtain ⟨b, er', g1, g2, g3, g4⟩ := extractFile_ok h h1 h2
          refine ⟨⟨hnm, fun h' => absurd h' hd, fun _ => ⟨g2, b, g3, s, rfl, ?_⟩⟩, fun q hq hq' => ?_, ?_⟩
          · unfold plainRead
            rw [Rd.bind_of_ok hrd, Rd.bind_of_ok g1]
            rfl
          · by_cases hqt : q = out ++ target san name
            · exact ⟨_, List.mem_singleton_self _, Or.inl hqt⟩
            · exact ⟨_, List.mem_singleton_self _, Or.inr (g4 q hqt hq hq')⟩
          · rw [← hdata]
            exact readToEnd_data g1

/-- The entries that were extracted, one after the other. -/
theorem extractLoop_ok {C : Codec} {san : Bytes → Bytes} (hs : Sanitizes san) {out : List Bytes} (ho : ∀ c ∈ out, PathPart c)
    {f : ZipFile} : ∀ (es : List StoredZipEntry) (index : Nat) (s s' : RState) (d d' : Disk), Rooted d.fs out →
    extractLoop C san (render out) f es index s d = (true, s', d') →
    ∃ names : List Bytes, names.length = es.length ∧
      (∀ k e n, es[k]? = some e → names[k]? = some n →
        Extracted C f san out s.data d.fs d'.fs (index + k) e.entry n) ∧
      (∀ (j k : Nat) m n, j < k → names[j]? = some m → names[k]? = some n →
        m.getLast? ≠ some 0x2F ∨ n.getLast? ≠ some 0x2F → target san m ≠ target san n) ∧
      OnlyNew out (names.map (target san)) d.fs d'.fs
  | [], _, s, s', d, d', _, h => by
    unfold extractLoop at h
    simp only [Prod.mk.injEq, true_and] at h
    obtain ⟨rfl, rfl⟩ := h
    exact ⟨[], rfl, fun k e n h => by simp at h, fun j k m n _ h => by simp at h, fun q h h' => absurd h h'⟩
  | e :: es, index, s, s', d, d', hr, h => by
    unfold extractLoop at h
    split at h
    · rename_i s1 d1 he
      have hc := contained_entry C hs ho f index e.entry s hr
      rw [he] at hc
      have hc' := contained_loop C hs ho f es (index + 1) s1 d1 (Contained.rooted hc hr)
      rw [h] at hc'
      obtain ⟨name, hx, hn, hd⟩ := extractEntry_ok hs ho he
      obtain ⟨names, l1, l2, l3, l4⟩ := extractLoop_ok hs ho es (index + 1) s1 s' d1 d' (Contained.rooted hc hr) h
      have hx' : Extracted C f san out s.data d.fs d'.fs index e.entry name :=
        ⟨hx.named, fun h => hc'.kept _ _ (hx.dir h), fun h => by
          obtain ⟨a, c, b, r⟩ := hx.file h
          exact ⟨a, c, hc'.kept _ _ b, r⟩⟩
      have hl2 : ∀ k e n, es[k]? = some e → names[k]? = some n →
          Extracted C f san out s.data d.fs d'.fs (index + (k + 1)) e.entry n := by
        intro k e n h1 h2
        have hk := l2 k e n h1 h2
        refine ⟨hk.named, hk.dir, fun h => ?_⟩
        obtain ⟨a, c, b, t, r1, r2⟩ := hk.file h
        refine ⟨?_, c, b, t, r1.trans hd, by rw [show index + (k + 1) = index + 1 + k by omega]; exact r2⟩
        cases hq : d.fs (out ++ target san n) with
        | none => rfl
        | some v => rw [hc.kept _ _ hq] at a; cases a
      refine ⟨name :: names, by simp [l1], fun k e' n h1 h2 => ?_, fun j k m n hjk h1 h2 hf => ?_, fun q hq hq' => ?_⟩
      · cases k with
        | zero => cases h1; cases h2; exact hx'
        | succ k => exact hl2 k e' n h1 h2
      · cases k with
        | zero => omega
        | succ k =>
          cases j with
          | succ j => exact l3 j k m n (by omega) h1 h2 hf
          | zero =>
            cases h1
            rw [List.getElem?_cons_succ] at h2
            have hk : k < es.length := by rw [← l1]; exact (List.getElem?_eq_some_iff.1 h2).1
            have hkx := l2 k es[k] n (List.getElem?_eq_getElem hk) h2
            intro ht
            by_cases hnf : n.getLast? = some 0x2F
            · have hmf := hf.resolve_right (fun h => h hnf)
              obtain ⟨_, c, b, _⟩ := hx'.file hmf
              have := hkx.dir hnf
              rw [← ht, b] at this
              cases this
            · obtain ⟨a, _⟩ := hkx.file hnf
              rw [← ht] at a
              by_cases hmf : name.getLast? = some 0x2F
              · rw [hx.dir hmf] at a; cases a
              · obtain ⟨_, c, b, _⟩ := hx.file hmf
                rw [b] at a; cases a
      · cases hq1 : d1.fs q with
        | none =>
          obtain ⟨t, h1, h2⟩ := l4 q hq1 hq'
          exact ⟨t, List.mem_cons_of_mem _ h1, h2⟩
        | some v =>
          obtain ⟨t, h1, h2⟩ := hn q hq (by rw [hq1]; simp)
          rw [List.mem_singleton] at h1
          subst h1
          refine ⟨_, List.mem_cons_self, h2.imp_right fun h2 => ⟨h2.1, ?_⟩⟩
          exact hc'.kept _ _ h2.2
    · cases h

end AsyncZip
