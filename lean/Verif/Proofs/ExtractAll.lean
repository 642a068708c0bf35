import Verif.Spec.ExtractAll
import Verif.Proofs.Extract
import Verif.Proofs.CutStream
/-!
# When extracting an archive succeeds
-/

namespace AsyncZip
open Spec Rd

/-! ## Paths -/

theorem splitSlash_last (name : Bytes) : ∃ l, splitSlash (replaceBackslash name) = l ++ [lastPiece name] := by
  rw [split_names]
  unfold lastPiece
  have hne : (name.splitOnP fun b => decide (b = 0x2F ∨ b = 0x5C)) ≠ [] := List.splitOnP_ne_nil _ _
  refine ⟨(name.splitOnP fun b => decide (b = 0x2F ∨ b = 0x5C)).dropLast, ?_⟩
  rw [List.getLast?_eq_some_getLast hne]
  exact (List.dropLast_concat_getLast hne).symm

theorem slash_iff {san : Bytes → Bytes} (hs : Sanitizes san) {out : List Bytes} (name : Bytes) :
    (OsPath.of (pathPush (render out) (sanitizeFilePath san name))).slash = true ↔ san (lastPiece name) = [] := by
  obtain ⟨l, hl⟩ := splitSlash_last name
  have hout : render out ≠ [] := by
    unfold render
    split
    · simp
    · cases out with
      | nil => contradiction
      | cons c cs => simp
  have hh := (sanitized hs (name := name)).2
  show ((pathPush (render out) (sanitizeFilePath san name)).getLast? == some 0x2F) = true ↔ _
  rw [beq_iff_eq]
  have hsan : sanitizeFilePath san name = pathPush ((l.map san).foldl pathPush []) (san (lastPiece name)) := by
    unfold sanitizeFilePath
    rw [hl, List.map_append, List.foldl_append]
    rfl
  have hflat := hs.flat (lastPiece name)
  constructor
  · intro h
    by_contra hne
    have h1 : (sanitizeFilePath san name).getLast? = (san (lastPiece name)).getLast? := by
      rw [hsan]
      unfold pathPush
      rw [if_neg (head_flat hflat)]
      split
      · rw [List.getLast?_append, List.getLast?_eq_some_getLast hne]; rfl
      · rw [List.getLast?_append, List.getLast?_cons, List.getLast?_eq_some_getLast hne]; rfl
    have h2 : (pathPush (render out) (sanitizeFilePath san name)).getLast? = (san (lastPiece name)).getLast? := by
      have h3 : (sanitizeFilePath san name).getLast? = some ((san (lastPiece name)).getLast hne) := by
        rw [h1, List.getLast?_eq_some_getLast hne]
      unfold pathPush
      rw [if_neg hh]
      split
      · rw [List.getLast?_append, h3, List.getLast?_eq_some_getLast hne]; rfl
      · rw [List.getLast?_append, List.getLast?_cons, h3, List.getLast?_eq_some_getLast hne]; rfl
    rw [h2, List.getLast?_eq_some_getLast hne, Option.some.injEq] at h
    exact hflat (h ▸ List.getLast_mem hne)
  · intro h
    rw [h] at hsan
    have hrel : sanitizeFilePath san name = [] ∨ (sanitizeFilePath san name).getLast? = some 0x2F := by
      rw [hsan]
      generalize (l.map san).foldl pathPush [] = p
      unfold pathPush
      rw [if_neg (by simp)]
      by_cases hp : p = [] ∨ p.getLast? = some 0x2F
      · rw [if_pos hp, List.append_nil]; exact hp
      · rw [if_neg hp]; right; simp
    unfold pathPush
    rw [if_neg hh]
    rcases hrel with h0 | h0
    · rw [h0]
      split
      · rename_i h1
        rw [List.append_nil]
        exact h1.resolve_left hout
      · simp
    · split
      · rw [List.getLast?_append, h0]; rfl
      · rw [List.getLast?_append, List.getLast?_cons, h0]; rfl

theorem target_last {san : Bytes → Bytes} {name : Bytes} (h : san (lastPiece name) ≠ []) : target san name ≠ [] := by
  unfold target
  have hne : (name.splitOnP fun b => decide (b = 0x2F ∨ b = 0x5C)) ≠ [] := List.splitOnP_ne_nil _ _
  intro h'
  rw [List.filter_eq_nil_iff] at h'
  refine h' (san (lastPiece name)) (List.mem_map.2 ⟨_, ?_, rfl⟩) (by simpa using h)
  unfold lastPiece
  rw [List.getLast?_eq_some_getLast hne]
  exact List.getLast_mem hne

/-! ## The disk after each step -/

/-- The disk with an entry laid on it. -/
def laid (fs : FS) (q : List Bytes) (content : Option Bytes) : FS :=
  match content with
  | none => makeDirs fs q
  | some c => fun r => if r = q then some (.file c) else makeDirs fs q r

theorem laid_none {fs : FS} {q : List Bytes} {c : Option Bytes} (r : List Bytes) :
    laid fs q c r = none ↔ fs r = none ∧ ¬ r <+: q := by
  have hm : makeDirs fs q r = none ↔ fs r = none ∧ ¬ r <+: q := by
    unfold makeDirs
    by_cases h : r <+: q ∧ fs r = none
    · rw [if_pos h]; simp [h.1]
    · rw [if_neg h]
      exact ⟨fun h' => ⟨h', fun h'' => h ⟨h'', h'⟩⟩, fun h' => h'.1⟩
  cases c with
  | none => exact hm
  | some c =>
    show (if r = q then _ else _) = none ↔ _
    by_cases hr : r = q
    · rw [if_pos hr, hr]; simp
    · rw [if_neg hr]; exact hm

theorem laid_file {fs : FS} {q : List Bytes} {c : Option Bytes} (hc : c ≠ none → fs q = none) (r : List Bytes) :
    (∃ x, laid fs q c r = some (.file x)) ↔ (∃ x, fs r = some (.file x)) ∨ c ≠ none ∧ r = q := by
  have hm : (∃ x, makeDirs fs q r = some (.file x)) ↔ ∃ x, fs r = some (.file x) := by
    unfold makeDirs
    by_cases h : r <+: q ∧ fs r = none
    · rw [if_pos h, h.2]; simp
    · rw [if_neg h]
  cases c with
  | none => simpa [laid] using hm
  | some c =>
    show (∃ x, (if r = q then _ else _) = _) ↔ _
    by_cases hr : r = q
    · rw [if_pos hr]; simp [hr]
    · rw [if_neg hr, hm]; simp [hr]

theorem blocked_iff {fs : FS} {q : List Bytes} : blocked fs q = false ↔ ∀ r c, r <+: q → fs r ≠ some (.file c) := by
  constructor
  · exact fun h r c hr => blocked_false h hr c
  · intro h
    unfold blocked
    rw [List.any_eq_false]
    intro n _
    cases hf : fs (q.take n) with
    | none => simp
    | some x =>
      cases x with
      | dir => simp
      | file c => exact absurd hf (h _ c (List.take_prefix _ _))

theorem makeDirs_there {fs : FS} (hg : Grown fs) {q : List Bytes} (h : fs q ≠ none) : makeDirs fs q = fs := by
  funext r
  unfold makeDirs
  split
  · rename_i hr
    by_cases hrq : r = q
    · rw [hrq] at hr; exact absurd hr.2 h
    · rw [hg q r h hr.1 hrq]
  · rfl

theorem laid_grown {fs : FS} (hg : Grown fs) {q : List Bytes} {c : Option Bytes} (hb : blocked fs q = false)
    (hc : c ≠ none → fs q = none) : Grown (laid fs q c) := by
  intro p r hp hr hne
  have hdir : ∀ r, r <+: q → (c ≠ none → r ≠ q) → laid fs q c r = some .dir := by
    intro r hr hne
    have hm : makeDirs fs q r = some .dir := by
      unfold makeDirs
      split
      · rfl
      · rename_i h
        cases hf : fs r with
        | none => exact absurd ⟨hr, hf⟩ h
        | some x =>
          cases x with
          | dir => rfl
          | file c => exact absurd hf (blocked_false hb hr c)
    cases c with
    | none => exact hm
    | some c =>
      show (if r = q then _ else _) = _
      rw [if_neg (hne (by simp))]; exact hm
  by_cases hpq : p <+: q
  · refine hdir r (hr.trans hpq) fun _ h => hne ?_
    subst h
    exact hr.eq_of_length (Nat.le_antisymm hr.length_le hpq.length_le)
  · have hfp : fs p ≠ none := fun h => hp ((laid_none p).2 ⟨h, hpq⟩)
    have hfr := hg p r hfp hr hne
    cases c with
    | none =>
      show makeDirs fs q r = _
      unfold makeDirs
      rw [if_neg (by rw [hfr]; simp), hfr]
    | some c =>
      show (if r = q then _ else _) = _
      rw [if_neg (fun h => by rw [h, hc (by simp)] at hfr; cases hfr)]
      unfold makeDirs
      rw [if_neg (by rw [hfr]; simp), hfr]

theorem laid_rooted {fs : FS} {out t : List Bytes} (hr : Rooted fs out) {c : Option Bytes}
    (hc : c ≠ none → fs (out ++ t) = none) : Rooted (laid fs (out ++ t) c) out := by
  intro q hq
  have h := hr q hq
  cases c with
  | none =>
    show makeDirs fs _ q = _
    unfold makeDirs
    rw [if_neg (by rw [h]; simp), h]
  | some c =>
    show (if q = _ then _ else _) = _
    rw [if_neg (fun h' => by rw [h', hc (by simp)] at h; cases h)]
    unfold makeDirs
    rw [if_neg (by rw [h]; simp), h]

/-! ## One entry -/

theorem createDirAll_nil (fs : FS) (p : OsPath) : Disk.createDirAll ⟨fs, []⟩ p =
    if blocked fs p.resolve then (false, ⟨fs, []⟩) else (true, ⟨makeDirs fs p.resolve, []⟩) := by
  unfold Disk.createDirAll
  split <;> rfl

theorem createNew_nil (fs : FS) (p : OsPath) : Disk.createNew ⟨fs, []⟩ p =
    if p.slash ∨ fs p.resolve ≠ none ∨ fs p.resolve.dropLast ≠ some .dir then (false, ⟨fs, []⟩)
    else (true, ⟨fun r => if r = p.resolve then some (.file []) else fs r, []⟩) := by
  unfold Disk.createNew
  split <;> rfl

theorem prefix_dropLast {q r : List Bytes} (h : r <+: q) (hne : r ≠ q) : r <+: q.dropLast := by
  have hl : r.length < q.length := by
    refine Nat.lt_of_le_of_ne h.length_le fun h' => hne (h.eq_of_length h')
  rw [List.prefix_iff_eq_take] at h
  rw [h, List.dropLast_eq_take]
  exact List.take_prefix_take_left (by omega)

theorem makeDirs_dropLast {fs : FS} {q r : List Bytes} (hr : r ≠ q) : makeDirs fs q.dropLast r = makeDirs fs q r := by
  unfold makeDirs
  by_cases h : r <+: q.dropLast ∧ fs r = none
  · rw [if_pos h, if_pos ⟨h.1.trans (List.dropLast_prefix _), h.2⟩]
  · rw [if_neg h, if_neg fun h' => h ⟨prefix_dropLast h'.1 hr, h'.2⟩]

/-- The parent of a path, and the attempt to make it. -/
theorem parent_made {fs : FS} (hg : Grown fs) {p : OsPath} {q : List Bytes} (hp : p.comps = q) (hpl : ∀ c ∈ q, PathPart c) (hq : q ≠ []) :
    ∃ parent, p.parent = some parent ∧ parent.resolve = q.dropLast ∧
      (if Disk.stat ⟨fs, []⟩ parent = some .dir then (true, (⟨fs, []⟩ : Disk)) else Disk.createDirAll ⟨fs, []⟩ parent) =
        if blocked fs q.dropLast then (false, ⟨fs, []⟩) else (true, ⟨makeDirs fs q.dropLast, []⟩) := by
  refine ⟨⟨p.comps.dropLast, false⟩, ?_, ?_, ?_⟩
  · unfold OsPath.parent
    rw [if_neg (by rw [hp]; exact hq)]
  · rw [resolve_plain, hp]
    intro c hc
    exact hpl c (by rw [← hp]; exact (List.dropLast_sublist _).subset hc)
  · have hres : (⟨p.comps.dropLast, false⟩ : OsPath).resolve = q.dropLast := by
      rw [resolve_plain, hp]
      intro c hc
      exact hpl c (by rw [← hp]; exact (List.dropLast_sublist _).subset hc)
    generalize (⟨p.comps.dropLast, false⟩ : OsPath) = par at hres
    by_cases h : fs q.dropLast = some .dir
    · have hst : Disk.stat ⟨fs, []⟩ par = some .dir := by
        unfold Disk.stat
        rw [show (⟨fs, []⟩ : Disk).fs par.resolve = some .dir from by rw [hres]; exact h]
      rw [if_pos hst, if_neg, makeDirs_there hg (by rw [h]; simp)]
      rw [Bool.not_eq_true, blocked_iff]
      intro r c hr
      by_cases hrq : r = q.dropLast
      · rw [hrq, h]; simp
      · rw [hg _ r (by rw [h]; simp) hr hrq]; simp
    · have hst : Disk.stat ⟨fs, []⟩ par ≠ some .dir := by
        unfold Disk.stat
        rw [hres]
        intro h'
        split at h'
        · split at h' <;> cases h'
        · exact h h'
      rw [if_neg hst, createDirAll_nil, hres]

theorem blocked_dropLast {fs : FS} {q : List Bytes} (h : fs q = none) : blocked fs q = blocked fs q.dropLast := by
  rw [Bool.eq_iff_iff, ← not_iff_not, Bool.not_eq_true, Bool.not_eq_true, blocked_iff, blocked_iff]
  constructor
  · exact fun h' r c hr => h' r c (hr.trans (List.dropLast_prefix _))
  · intro h' r c hr
    by_cases hrq : r = q
    · rw [hrq, h]; simp
    · exact h' r c (prefix_dropLast hr hrq)

theorem extractFile_run (C : Codec) (er : EntryReader) {p : OsPath} {q : List Bytes} (s : RState) {fs : FS} (hg : Grown fs)
    (hp : p.comps = q) (hpl : ∀ c ∈ q, PathPart c) (hsl : p.slash = false) (hq : q ≠ []) (hb : blocked fs q = false) (hn : fs q = none) :
    extractFile C er p s ⟨fs, []⟩ = copyOut C er p s ⟨fun r => if r = q then some (.file []) else makeDirs fs q r, []⟩ := by
  have hres : p.resolve = q := by rw [resolve_plain (by rw [hp]; exact hpl), hp]
  obtain ⟨parent, h1, h2, h3⟩ := parent_made hg hp hpl hq
  unfold extractFile
  rw [h1]
  simp only
  rw [h3, ← blocked_dropLast hn, hb]
  simp only [Bool.false_eq_true, if_false, if_true]
  have hself : makeDirs fs q.dropLast q.dropLast = some .dir := makeDirs_self (by rw [← blocked_dropLast hn]; exact hb)
  have hqn : makeDirs fs q.dropLast q = none := by
    unfold makeDirs
    rw [if_neg, hn]
    intro h
    have := h.1.length_le
    rw [List.length_dropLast] at this
    have := List.length_pos_iff.2 hq
    omega
  have hnew : Disk.createNew ⟨makeDirs fs q.dropLast, []⟩ p =
      (true, ⟨fun r => if r = p.resolve then some (.file []) else makeDirs fs q.dropLast r, []⟩) := by
    rw [createNew_nil, if_neg (by rw [hsl, hres, hqn, hself]; simp)]
  rw [hnew]
  show copyOut C er p s ⟨fun r => if r = p.resolve then some (.file []) else makeDirs fs q.dropLast r, []⟩ = _
  congr 2
  funext r
  rw [hres]
  by_cases hr : r = q
  · rw [if_pos hr, if_pos hr]
  · rw [if_neg hr, if_neg hr, makeDirs_dropLast hr]

theorem extractFile_need {C : Codec} {er : EntryReader} {p : OsPath} {q : List Bytes} {s : RState} {fs : FS} (hg : Grown fs)
    (hp : p.comps = q) (hpl : ∀ c ∈ q, PathPart c) (h : (extractFile C er p s ⟨fs, []⟩).1 = true) :
    p.slash = false ∧ q ≠ [] ∧ blocked fs q = false ∧ fs q = none := by
  have hres : p.resolve = q := by rw [resolve_plain (by rw [hp]; exact hpl), hp]
  by_cases hq : q = []
  · unfold extractFile OsPath.parent at h
    rw [hp, if_pos hq] at h
    cases h
  · obtain ⟨parent, h1, h2, h3⟩ := parent_made hg hp hpl hq
    unfold extractFile at h
    rw [h1] at h
    simp only at h
    rw [h3] at h
    by_cases hb : blocked fs q.dropLast = true
    · rw [if_pos hb] at h
      cases h
    · rw [if_neg hb] at h
      simp only [if_true] at h
      rw [createNew_nil] at h
      by_cases hc : p.slash = true ∨ makeDirs fs q.dropLast p.resolve ≠ none ∨
          makeDirs fs q.dropLast p.resolve.dropLast ≠ some .dir
      · rw [if_pos hc] at h
        cases h
      · have hsl : p.slash = false := by
          rw [← Bool.not_eq_true]; exact fun h' => hc (Or.inl h')
        have hn : fs q = none := by
          have : makeDirs fs q.dropLast q = none := by
            by_contra h'
            exact hc (Or.inr (Or.inl (by rw [hres]; exact h')))
          unfold makeDirs at this
          split at this
          · cases this
          · exact this
        exact ⟨hsl, hq, by rw [blocked_dropLast hn]; simpa using hb, hn⟩

/-- One file, on a disk that does as it is told. -/
theorem extractFile_iff {C : Codec} {er : EntryReader} {p : OsPath} {q : List Bytes} {s : RState} {fs : FS} (hg : Grown fs)
    (hp : p.comps = q) (hpl : ∀ c ∈ q, PathPart c) (s' : RState) (d' : Disk) :
    extractFile C er p s ⟨fs, []⟩ = (true, s', d') ↔
      (p.slash = false ∧ q ≠ [] ∧ blocked fs q = false ∧ fs q = none) ∧
      ∃ b er', er.readToEnd C 8192 s = (.ok (b, er'), s') ∧ d' = ⟨laid fs q (some b), []⟩ := by
  have hres : p.resolve = q := by rw [resolve_plain (by rw [hp]; exact hpl), hp]
  have hrun : ∀ b : Bytes, (Disk.write ⟨fun r => if r = q then some (.file []) else makeDirs fs q r, []⟩ p b) =
      (true, ⟨laid fs q (some b), []⟩) := by
    intro b
    show (true, Disk.mk _ _) = _
    congr 2
    funext r
    rw [hres]
    show (if r = q then _ else (if r = q then _ else _)) = if r = q then _ else _
    by_cases hr : r = q
    · rw [if_pos hr, if_pos hr]
    · rw [if_neg hr, if_neg hr, if_neg hr]
  constructor
  · intro h
    have hc := extractFile_need hg hp hpl (by rw [h])
    refine ⟨hc, ?_⟩
    rw [extractFile_run C er s hg hp hpl hc.1 hc.2.1 hc.2.2.1 hc.2.2.2] at h
    unfold copyOut at h
    split at h
    · rename_i b er' s1 hr
      rw [hrun] at h
      simp only [Prod.mk.injEq, true_and] at h
      obtain ⟨rfl, rfl⟩ := h
      exact ⟨b, er', hr, rfl⟩
    · cases h
  · rintro ⟨hc, b, er', hr, rfl⟩
    rw [extractFile_run C er s hg hp hpl hc.1 hc.2.1 hc.2.2.1 hc.2.2.2]
    unfold copyOut
    rw [hr]
    simp only
    rw [hrun]

/-! ## Reading on the ideal source -/

theorem readerWithoutEntry_posIndep {f : ZipFile} {i : Nat} (h : i < f.entries.length) : PosIndep (readerWithoutEntry f i) := by
  rw [readerWithoutEntry_eq]
  exact PosIndep.bind (readerWithEntry_posIndep h) fun _ => LogIndep.pure

theorem plainRead_posIndep (C : Codec) {f : ZipFile} {i : Nat} (n : Nat) (h : i < f.entries.length) :
    PosIndep (plainRead C f i n) :=
  PosIndep.bind (readerWithoutEntry_posIndep h) fun er => LogIndep.bind (readToEnd_logIndep C n er) fun _ => LogIndep.pure

theorem fetch_iff {C : Codec} {f : ZipFile} {i : Nat} (h : i < f.entries.length) {s : RState} (hs : s.sched = none) (name : Bytes) :
    Fetchable C f s.data i name ↔ ∃ er s1, readerWithoutEntry f i s = (.ok er, s1) ∧
      (IsFile name → ∃ b er' s2, er.readToEnd C 8192 s1 = (.ok (b, er'), s2)) := by
  obtain ⟨data, pos, sc, log⟩ := s
  cases hs
  have h1 := (readerWithoutEntry_posIndep h data pos 0 none log []).1
  have h2 := (plainRead_posIndep C 8192 h data pos 0 none log []).1
  unfold Fetchable
  rw [← h1, ← h2]
  cases hr : readerWithoutEntry f i ⟨data, pos, none, log⟩ with
  | mk r s1 =>
    cases r with
    | error e => exact ⟨fun h => (by obtain ⟨⟨_, h⟩, _⟩ := h; cases h), fun h => (by obtain ⟨_, _, h, _⟩ := h; cases h)⟩
    | ok er =>
      have hp : plainRead C f i 8192 ⟨data, pos, none, log⟩ = (er.readToEnd C 8192 >>= fun x => pure x.1) s1 := by
        unfold plainRead
        rw [bind_of_ok hr]
      rw [hp]
      cases hx : er.readToEnd C 8192 s1 with
      | mk r' s2 =>
        cases r' with
        | error e =>
          rw [bind_of_error hx]
          constructor
          · rintro ⟨_, h⟩
            exact ⟨er, s1, rfl, fun hf => by obtain ⟨_, h⟩ := h hf; cases h⟩
          · rintro ⟨_, _, h0, h⟩
            cases h0
            exact ⟨⟨er, rfl⟩, fun hf => by obtain ⟨_, _, _, h⟩ := h hf; rw [hx] at h; cases h⟩
        | ok a =>
          obtain ⟨b, er'⟩ := a
          rw [bind_of_ok hx]
          exact ⟨fun _ => ⟨er, s1, rfl, fun _ => ⟨b, er', s2, hx⟩⟩, fun _ => ⟨⟨er, rfl⟩, fun _ => ⟨b, rfl⟩⟩⟩

/-! ## One entry after the other -/

theorem extractEntry_iff {C : Codec} {san : Bytes → Bytes} (hs : Sanitizes san) {out : List Bytes} (ho : ∀ c ∈ out, PathPart c)
    {f : ZipFile} {i : Nat} {e : ZipEntry} {s : RState} {fs : FS} (hg : Grown fs) (s' : RState) (d' : Disk) :
    extractEntry C san (render out) f i e s ⟨fs, []⟩ = (true, s', d') ↔
      ∃ name, e.filename.asStr = .ok name ∧ Room san out fs name ∧ ∃ er s1, readerWithoutEntry f i s = (.ok er, s1) ∧
        ((¬ IsFile name ∧ s' = s1 ∧ d' = ⟨laid fs (out ++ target san name) none, []⟩) ∨
          (IsFile name ∧ ∃ b er', er.readToEnd C 8192 s1 = (.ok (b, er'), s') ∧
            d' = ⟨laid fs (out ++ target san name) (some b), []⟩)) := by
  unfold extractEntry
  cases hname : e.filename.asStr with
  | error x =>
    refine ⟨fun h => (by cases h), ?_⟩
    rintro ⟨_, h, _⟩
    cases h
  | ok name =>
    obtain ⟨h1, h2⟩ := entry_path hs ho name
    have hres := resolve_plain (p := OsPath.of (pathPush (render out) (sanitizeFilePath san name))) (by rw [h1]; exact h2)
    rw [h1] at hres
    have hsl := slash_iff hs (out := out) name
    have hsd := getLast_split_slash hs (out := out) (name := name)
    simp only
    generalize OsPath.of (pathPush (render out) (sanitizeFilePath san name)) = p at h1 hres hsl hsd
    have hdir : e.dir = .ok (name.getLast? == some 0x2F) := by
      unfold ZipEntry.dir
      rw [hname]
      rfl
    rw [hdir]
    simp only
    cases hrd : readerWithoutEntry f i s with
    | mk r s1 =>
      cases r with
      | error x =>
        refine ⟨fun h => (by cases h), ?_⟩
        rintro ⟨_, _, _, _, _, h, _⟩
        cases h
      | ok er =>
        simp only
        by_cases hf : name.getLast? = some 0x2F
        · rw [if_pos (by rw [hf]; rfl)]
          have hb : Room san out fs name ↔ blocked fs (out ++ target san name) = false :=
            ⟨fun h => blocked_iff.2 fun r c hr => h.clear r c hr,
              fun h => ⟨fun r c hr => blocked_iff.1 h r c hr, fun h' => absurd hf h'⟩⟩
          have hrun : (if Disk.stat ⟨fs, []⟩ p ≠ none then (true, s1, (⟨fs, []⟩ : Disk))
              else ((Disk.createDirAll ⟨fs, []⟩ p).1, s1, (Disk.createDirAll ⟨fs, []⟩ p).2)) =
              if blocked fs (out ++ target san name) then (false, s1, ⟨fs, []⟩)
              else (true, s1, ⟨makeDirs fs (out ++ target san name), []⟩) := by
            rw [createDirAll_nil, hres]
            cases hq : fs (out ++ target san name) with
            | none =>
              have hst : Disk.stat ⟨fs, []⟩ p = none := by
                unfold Disk.stat
                rw [hres, show (⟨fs, []⟩ : Disk).fs (out ++ target san name) = none from hq]
              rw [if_neg (fun h => h hst)]
              split <;> rfl
            | some x =>
              cases x with
              | dir =>
                have hst : Disk.stat ⟨fs, []⟩ p ≠ none := by
                  unfold Disk.stat
                  rw [hres, show (⟨fs, []⟩ : Disk).fs (out ++ target san name) = some .dir from hq]
                  simp
                have hnb : blocked fs (out ++ target san name) = false := by
                  rw [blocked_iff]
                  intro r c hr
                  by_cases hrq : r = out ++ target san name
                  · rw [hrq, hq]; simp
                  · rw [hg _ r (by rw [hq]; simp) hr hrq]; simp
                rw [if_pos hst, hnb, makeDirs_there hg (by rw [hq]; simp)]
                rfl
              | file c =>
                have hst : Disk.stat ⟨fs, []⟩ p = none := by
                  unfold Disk.stat
                  rw [hres, show (⟨fs, []⟩ : Disk).fs (out ++ target san name) = some (.file c) from hq]
                  simp only [hsd hf, if_true]
                rw [if_neg (fun h => h hst)]
                split <;> rfl
          rw [hrun]
          constructor
          · intro h
            split at h
            · cases h
            · rename_i hnb
              simp only [Prod.mk.injEq, true_and] at h
              obtain ⟨rfl, rfl⟩ := h
              exact ⟨name, rfl, hb.2 (by simpa using hnb), er, s1, rfl, Or.inl ⟨fun h => h hf, rfl, rfl⟩⟩
          · rintro ⟨_, h0, hr, er', s2, hr2, h⟩
            cases h0
            cases hr2
            rw [hb.1 hr]
            rcases h with ⟨_, rfl, rfl⟩ | ⟨h, _⟩
            · rfl
            · exact absurd hf h
        · rw [if_neg (by simpa using hf)]
          rw [extractFile_iff hg h1 h2]
          constructor
          · rintro ⟨⟨g1, g2, g3, g4⟩, b, er', g5, g6⟩
            refine ⟨name, rfl, ⟨fun r c hr => blocked_iff.1 g3 r c hr, fun _ => ⟨fun h => ?_, g4⟩⟩, er, s1, rfl,
              Or.inr ⟨hf, b, er', g5, g6⟩⟩
            rw [hsl.2 h] at g1
            cases g1
          · rintro ⟨_, h0, hr, er', s2, hr2, h⟩
            cases h0
            cases hr2
            rcases h with ⟨h, _⟩ | ⟨_, b, er', g5, g6⟩
            · exact absurd hf h
            · obtain ⟨f1, f2⟩ := hr.free hf
              refine ⟨⟨?_, ?_, blocked_iff.2 fun r c hr' => hr.clear r c hr', f2⟩, b, er', g5, g6⟩
              · rw [← Bool.not_eq_true]
                exact fun h => f1 (hsl.1 h)
              · exact fun h => target_last f1 (List.append_eq_nil_iff.1 h).2

theorem room_laid {san : Bytes → Bytes} {out : List Bytes} {fs : FS} {n m : Bytes} {c : Option Bytes} (hc : c ≠ none ↔ IsFile n)
    (hr : Room san out fs n) : Room san out (laid fs (out ++ target san n) c) m ↔ Room san out fs m ∧ Apart san n m := by
  have hn : c ≠ none → fs (out ++ target san n) = none := fun h => (hr.free (hc.1 h)).2
  constructor
  · intro h
    refine ⟨⟨fun q x hq hx => ?_, fun hf => ⟨(h.free hf).1, ((laid_none _).1 (h.free hf).2).1⟩⟩, fun hf hp => ?_, fun hf hp => ?_⟩
    · obtain ⟨y, hy⟩ := (laid_file hn q).2 (Or.inl ⟨x, hx⟩)
      exact h.clear q y hq hy
    · obtain ⟨y, hy⟩ := (laid_file hn (out ++ target san n)).2 (Or.inr ⟨hc.2 hf, rfl⟩)
      exact h.clear _ y ((List.prefix_append_right_inj out).2 hp) hy
    · exact ((laid_none _).1 (h.free hf).2).2 ((List.prefix_append_right_inj out).2 hp)
  · rintro ⟨h, a1, a2⟩
    refine ⟨fun q x hq hx => ?_, fun hf => ⟨(h.free hf).1, (laid_none _).2 ⟨(h.free hf).2, fun hp => a2 hf ?_⟩⟩⟩
    · rcases (laid_file hn q).1 ⟨x, hx⟩ with ⟨y, hy⟩ | ⟨h1, rfl⟩
      · exact h.clear q y hq hy
      · exact a1 (hc.1 h1) ((List.prefix_append_right_inj out).1 hq)
    · exact (List.prefix_append_right_inj out).1 hp

theorem asStr_iff {z : ZipString} {name : Bytes} : z.asStr = .ok name ↔ z.encoding = .utf8 ∧ z.raw = name := by
  obtain ⟨e, r, a⟩ := z
  cases e with
  | utf8 => exact ⟨fun h => (by cases h; exact ⟨rfl, rfl⟩), fun h => (by cases h.2; rfl)⟩
  | raw => exact ⟨fun h => (by cases h), fun h => (by cases h.1)⟩

theorem extractLoop_iff {C : Codec} {san : Bytes → Bytes} (hs : Sanitizes san) {out : List Bytes} (ho : ∀ c ∈ out, PathPart c)
    {f : ZipFile} : ∀ (es : List StoredZipEntry) (index : Nat) (s : RState) (fs : FS), s.sched = none → Grown fs →
    index + es.length ≤ f.entries.length →
    ((extractLoop C san (render out) f es index s ⟨fs, []⟩).1 = true ↔
      (∀ k e, es[k]? = some e → e.entry.filename.encoding = .utf8 ∧ Room san out fs e.entry.filename.raw ∧
        Fetchable C f s.data (index + k) e.entry.filename.raw) ∧
      es.Pairwise fun e e' => Apart san e.entry.filename.raw e'.entry.filename.raw)
  | [], _, _, _, _, _, _ => ⟨fun _ => ⟨fun k e h => by simp at h, List.Pairwise.nil⟩, fun _ => rfl⟩
  | e :: es, index, s, fs, hsc, hg, hl => by
    rw [List.length_cons] at hl
    have hi : index < f.entries.length := by omega
    have key : ∀ s1 d1, extractEntry C san (render out) f index e.entry s ⟨fs, []⟩ = (true, s1, d1) →
        ((extractLoop C san (render out) f es (index + 1) s1 d1).1 = true ↔
          (∀ k e', es[k]? = some e' → e'.entry.filename.encoding = .utf8 ∧ (Room san out fs e'.entry.filename.raw ∧
            Apart san e.entry.filename.raw e'.entry.filename.raw) ∧ Fetchable C f s.data (index + 1 + k) e'.entry.filename.raw) ∧
          es.Pairwise fun e e' => Apart san e.entry.filename.raw e'.entry.filename.raw) := by
      intro s1 d1 he
      obtain ⟨name, hname, hr, er, s0, hrd, h⟩ := (extractEntry_iff hs ho hg s1 d1).1 he
      obtain ⟨henc, rfl⟩ := asStr_iff.1 hname
      have hk := readerWithoutEntry_keeps f index s
      rw [hrd] at hk
      obtain ⟨c, hc, hd1, hsd, hss⟩ : ∃ c : Option Bytes, (c ≠ none ↔ IsFile e.entry.filename.raw) ∧
          d1 = ⟨laid fs (out ++ target san e.entry.filename.raw) c, []⟩ ∧ s1.data = s.data ∧ s1.sched = none := by
        rcases h with ⟨h1, rfl, rfl⟩ | ⟨h1, b, er', h2, rfl⟩
        · exact ⟨none, ⟨fun h => absurd rfl h, fun h => absurd h h1⟩, rfl, hk.1, hk.2 hsc⟩
        · refine ⟨some b, ⟨fun _ => h1, fun _ => by simp⟩, rfl, (readToEnd_data h2).trans hk.1, ?_⟩
          have := (readToEnd_calm C 8192 er s0 (hk.2 hsc)).2
          rw [h2] at this
          exact this
      subst hd1
      have hn : c ≠ none → fs (out ++ target san e.entry.filename.raw) = none := fun h => (hr.free (hc.1 h)).2
      rw [extractLoop_iff hs ho es (index + 1) s1 _ hss
        (laid_grown hg (blocked_iff.2 fun r x hr' => hr.clear r x hr') hn) (by omega)]
      simp only [hsd, room_laid hc hr]
    unfold extractLoop
    constructor
    · intro h
      split at h
      · rename_i s1 d1 he
        obtain ⟨h1, h2⟩ := (key s1 d1 he).1 h
        obtain ⟨name, hname, hr, er, s0, hrd, hx⟩ := (extractEntry_iff hs ho hg s1 d1).1 he
        obtain ⟨henc, rfl⟩ := asStr_iff.1 hname
        refine ⟨fun k e' hk => ?_, List.pairwise_cons.2 ⟨fun e' he' => ?_, h2⟩⟩
        · cases k with
          | zero =>
            cases hk
            refine ⟨henc, hr, (fetch_iff hi hsc _).2 ⟨er, s0, hrd, fun hf => ?_⟩⟩
            rcases hx with ⟨h', _⟩ | ⟨_, b, er', h', _⟩
            · exact absurd hf h'
            · exact ⟨b, er', s1, h'⟩
          | succ k =>
            obtain ⟨g1, g2, g3⟩ := h1 k e' hk
            rw [show index + (k + 1) = index + 1 + k by omega]
            exact ⟨g1, g2.1, g3⟩
        · obtain ⟨k, hk⟩ := List.getElem?_of_mem he'
          exact (h1 k e' hk).2.1.2
      · cases h
    · rintro ⟨h1, h2⟩
      obtain ⟨h2, h3⟩ := List.pairwise_cons.1 h2
      obtain ⟨g1, g2, g3⟩ := h1 0 e rfl
      obtain ⟨er, s0, hrd, hx⟩ := (fetch_iff hi hsc _).1 g3
      obtain ⟨s1, d1, he⟩ : ∃ s1 d1, extractEntry C san (render out) f index e.entry s ⟨fs, []⟩ = (true, s1, d1) := by
        by_cases hf : IsFile e.entry.filename.raw
        · obtain ⟨b, er', s2, hb⟩ := hx hf
          exact ⟨s2, _, (extractEntry_iff hs ho hg s2 _).2 ⟨_, asStr_iff.2 ⟨g1, rfl⟩, g2, er, s0, hrd,
            Or.inr ⟨hf, b, er', hb, rfl⟩⟩⟩
        · exact ⟨s0, _, (extractEntry_iff hs ho hg s0 _).2 ⟨_, asStr_iff.2 ⟨g1, rfl⟩, g2, er, s0, hrd, Or.inl ⟨hf, rfl, rfl⟩⟩⟩
      rw [he]
      refine (key s1 d1 he).2 ⟨fun k e' hk => ?_, h3⟩
      obtain ⟨f1, f2, f3⟩ := h1 (k + 1) e' hk
      rw [show index + 1 + k = index + (k + 1) by omega]
      exact ⟨f1, ⟨f2, h2 e' (List.mem_of_getElem? hk)⟩, f3⟩

end AsyncZip
