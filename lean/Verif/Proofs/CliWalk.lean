import Verif.Spec.CliCompress
import Verif.Proofs.ExtractAll
/-!
# Helper lemmas about walking a directory
-/

namespace AsyncZip
open Spec

theorem resolve_render {q : List Bytes} (h : ∀ c ∈ q, PathPart c) : (OsPath.of (render q)).resolve = q := by
  have hc := comps_render h
  rw [resolve_plain (by rw [hc]; exact h), hc]

theorem render_concat (q : List Bytes) (c : Bytes) : render (q ++ [c]) = (if q = [] then [] else render q) ++ 0x2F :: c := by
  unfold render
  rw [if_neg (by simp)]
  by_cases h : q = []
  · rw [if_pos h, h]; simp
  · rw [if_neg h, if_neg h]; simp

theorem render_last {q : List Bytes} (hq : q ≠ []) (h : ∀ c ∈ q, PathPart c) : (render q).getLast? ≠ some 0x2F := by
  obtain ⟨r, c, rfl⟩ : ∃ r c, q = r ++ [c] := ⟨q.dropLast, q.getLast hq, (List.dropLast_concat_getLast hq).symm⟩
  obtain ⟨h1, h2, _⟩ := h c (by simp)
  rw [render_concat, show ∀ x : Bytes, x ++ 0x2F :: c = (x ++ [0x2F]) ++ c from fun x => by simp, List.getLast?_append_of_ne_nil _ h1]
  exact fun h => h2 (List.mem_of_getLast? h)

theorem push_render {q : List Bytes} {c : Bytes} (h : ∀ c ∈ q, PathPart c) (hc : PathPart c) :
    pathPush (render q) c = render (q ++ [c]) := by
  unfold pathPush
  rw [if_neg (head_flat hc.2.1), render_concat]
  by_cases hq : q = []
  · subst hq
    rw [if_pos (Or.inr (by decide)), if_pos rfl]
    rfl
  · rw [if_neg, if_neg hq]
    rintro (h' | h')
    · unfold render at h'
      rw [if_neg hq] at h'
      cases q with
      | nil => exact hq rfl
      | cons a l => simp at h'
    · exact render_last hq h h'

/-- Neither leads to the other. -/
def Aside (a b : List Bytes) : Prop := ¬ a <+: b ∧ ¬ b <+: a

theorem prefix_concat {e d : List Bytes} {c : Bytes} (h : e <+: d ++ [c]) : e = d ++ [c] ∨ e <+: d := by
  rcases List.prefix_concat_iff.1 h with h | h
  · exact Or.inl h
  · exact Or.inr h

theorem aside_child {d e : List Bytes} (h : Aside d e) (c : Bytes) : Aside e (d ++ [c]) := by
  refine ⟨fun h' => ?_, fun h' => h.1 ((List.prefix_append d [c]).trans h')⟩
  rcases prefix_concat h' with rfl | h'
  · exact h.1 (List.prefix_append d [c])
  · exact h.2 h'

theorem isDir_render {t : Tree} {q : List Bytes} (h : ∀ c ∈ q, PathPart c) : t.isDir (render q) = decide (t.fs q = some .dir) := by
  unfold Tree.isDir
  rw [resolve_render h]

/-- The directories and the files in a directory. -/
def kidDirs (t : Tree) (d : List Bytes) : List (List Bytes) := ((t.list d).map (d ++ [·])).filter fun q => t.fs q = some .dir
def kidFiles (t : Tree) (d : List Bytes) : List (List Bytes) := ((t.list d).map (d ++ [·])).filter fun q => !(t.fs q = some .dir)

variable {t : Tree} (hB : Browsable t)
include hB

theorem child_part {d : List Bytes} (hd : t.fs d = some .dir) {c : Bytes} (hc : c ∈ t.list d) : ∀ x ∈ d ++ [c], PathPart x :=
  hB.parts _ ((hB.all d c hd).1 hc)

theorem children {d : List Bytes} (hd : t.fs d = some .dir) :
    (t.list d).map (pathPush (render d)) = ((t.list d).map (d ++ [·])).map render := by
  rw [List.map_map]
  refine List.map_congr_left fun c hc => ?_
  have h := child_part hB hd hc
  exact push_render (fun x hx => h x (List.mem_append_left _ hx)) (h c (by simp))

theorem children_dirs {d : List Bytes} (hd : t.fs d = some .dir) :
    ((t.list d).map (pathPush (render d))).filter t.isDir = (kidDirs t d).map render := by
  rw [children hB hd, List.filter_map]
  unfold kidDirs
  congr 1
  refine List.filter_congr fun q hq => ?_
  obtain ⟨c, hc, rfl⟩ := List.mem_map.1 hq
  exact isDir_render (child_part hB hd hc)

theorem children_files {d : List Bytes} (hd : t.fs d = some .dir) :
    (((t.list d).map (pathPush (render d))).filter fun p => !t.isDir p) = (kidFiles t d).map render := by
  rw [children hB hd, List.filter_map]
  unfold kidFiles
  congr 1
  refine List.filter_congr fun q hq => ?_
  obtain ⟨c, hc, rfl⟩ := List.mem_map.1 hq
  show (!t.isDir (render _)) = _
  rw [isDir_render (child_part hB hd hc)]

theorem walk_step {d : List Bytes} (hd : t.fs d = some .dir) (ds : List (List Bytes)) (n : Nat) (os : List OsEv) (files : List Bytes) :
    walkDir t (n + 1) os ((d :: ds).map render) files =
      match os.head?.getD .go with
      | .go => walkDir t n os.tail ((ds ++ kidDirs t d).map render) (files ++ (kidFiles t d).map render)
      | .fail _ => (.stopped, os.tail) := by
  rw [List.map_cons, walkDir, resolve_render (hB.parts d (by rw [hd]; simp)), hd]
  cases os.head?.getD .go with
  | go =>
    simp only
    rw [children_dirs hB hd, children_files hB hd, List.map_append]
  | fail m => rfl

theorem mem_kidDirs {d q : List Bytes} (hd : t.fs d = some .dir) : q ∈ kidDirs t d ↔ t.fs q = some .dir ∧ ∃ c, q = d ++ [c] := by
  unfold kidDirs
  rw [List.mem_filter, List.mem_map]
  constructor
  · rintro ⟨⟨c, _, rfl⟩, h⟩
    exact ⟨by simpa using h, c, rfl⟩
  · rintro ⟨h, c, rfl⟩
    exact ⟨⟨c, (hB.all d c hd).2 (by rw [h]; simp), rfl⟩, by simpa using h⟩

theorem mem_kidFiles {d q : List Bytes} (hd : t.fs d = some .dir) :
    q ∈ kidFiles t d ↔ (∃ x, t.fs q = some (.file x)) ∧ ∃ c, q = d ++ [c] := by
  unfold kidFiles
  rw [List.mem_filter, List.mem_map]
  constructor
  · rintro ⟨⟨c, hc, rfl⟩, h⟩
    refine ⟨?_, c, rfl⟩
    have h0 := (hB.all d c hd).1 hc
    cases hq : t.fs (d ++ [c]) with
    | none => exact absurd hq h0
    | some x =>
      cases x with
      | dir => simp [hq] at h
      | file x => exact ⟨x, rfl⟩
  · rintro ⟨⟨x, h⟩, c, rfl⟩
    exact ⟨⟨c, (hB.all d c hd).2 (by rw [h]; simp), rfl⟩, by simp [h]⟩

theorem nodup_kids {d : List Bytes} (hd : t.fs d = some .dir) : ((t.list d).map (d ++ [·])).Nodup :=
  List.Pairwise.map _ (fun a b h h' => h (by simpa using h')) (hB.once d hd)

theorem aside_next {d : List Bytes} {ds : List (List Bytes)} (hd : t.fs d = some .dir) (h : (d :: ds).Pairwise Aside) :
    (ds ++ kidDirs t d).Pairwise Aside := by
  rw [List.pairwise_cons] at h
  refine List.pairwise_append.2 ⟨h.2, ?_, ?_⟩
  · refine ((nodup_kids hB hd).filter _).imp_of_mem fun {a b} ha hb hab => ?_
    obtain ⟨_, c, rfl⟩ := (mem_kidDirs hB hd).1 ha
    obtain ⟨_, c', rfl⟩ := (mem_kidDirs hB hd).1 hb
    exact ⟨fun h' => hab (h'.eq_of_length (by simp)), fun h' => hab (h'.eq_of_length (by simp)).symm⟩
  · intro e he b hb
    obtain ⟨_, c, rfl⟩ := (mem_kidDirs hB hd).1 hb
    exact aside_child (h.1 e he) c

theorem dirs_next {d : List Bytes} {ds : List (List Bytes)} (h : ∀ e ∈ d :: ds, t.fs e = some .dir) :
    ∀ e ∈ ds ++ kidDirs t d, t.fs e = some .dir := by
  intro e he
  rcases List.mem_append.1 he with he | he
  · exact h e (List.mem_cons_of_mem _ he)
  · exact ((mem_kidDirs hB (h d List.mem_cons_self)).1 he).1

/-- What is found below the directories. -/
theorem walk_found : ∀ (n : Nat) (os : List OsEv) (ds : List (List Bytes)) (files ps : List Bytes) (os' : List OsEv),
    (∀ d ∈ ds, t.fs d = some .dir) → ds.Pairwise Aside → walkDir t n os (ds.map render) files = (.files ps, os') →
    ∃ qs : List (List Bytes), ps = files ++ qs.map render ∧ qs.Nodup ∧
      ∀ q, q ∈ qs ↔ (∃ x, t.fs q = some (.file x)) ∧ ∃ d ∈ ds, d <+: q := by
  intro n
  induction n with
  | zero =>
    intro os ds files ps os' _ _ h
    cases ds with
    | nil => cases h; exact ⟨[], by simp, List.nodup_nil, fun q => by simp⟩
    | cons d ds => cases h
  | succ n ih =>
    intro os ds files ps os' hds hp h
    cases ds with
    | nil => cases h; exact ⟨[], by simp, List.nodup_nil, fun q => by simp⟩
    | cons d ds =>
      have hd := hds d List.mem_cons_self
      rw [walk_step hB hd] at h
      cases he : os.head?.getD .go with
      | fail m => rw [he] at h; cases h
      | go =>
        rw [he] at h
        obtain ⟨qs, h1, h2, h3⟩ := ih _ _ _ _ _ (dirs_next hB hds) (aside_next hB hd hp) h
        rw [List.pairwise_cons] at hp
        refine ⟨kidFiles t d ++ qs, by rw [h1]; simp, ?_, fun q => ?_⟩
        · refine List.nodup_append.2 ⟨(nodup_kids hB hd).filter _, h2, fun q hq q' hq' heq => ?_⟩
          subst heq
          obtain ⟨⟨x, hx⟩, c, rfl⟩ := (mem_kidFiles hB hd).1 hq
          obtain ⟨_, e, he, hpre⟩ := (h3 _).1 hq'
          rcases List.mem_append.1 he with he | he
          · exact (aside_child (hp.1 e he) c).1 hpre
          · obtain ⟨hed, c', rfl⟩ := (mem_kidDirs hB hd).1 he
            rw [hpre.eq_of_length (by simp), hx] at hed
            cases hed
        · rw [List.mem_append, h3, mem_kidFiles hB hd]
          constructor
          · rintro (⟨hx, c, rfl⟩ | ⟨hx, e, he, hpre⟩)
            · exact ⟨hx, d, List.mem_cons_self, List.prefix_append _ _⟩
            · refine ⟨hx, ?_⟩
              rcases List.mem_append.1 he with he | he
              · exact ⟨e, List.mem_cons_of_mem _ he, hpre⟩
              · obtain ⟨_, c, rfl⟩ := (mem_kidDirs hB hd).1 he
                exact ⟨d, List.mem_cons_self, (List.prefix_append _ _).trans hpre⟩
          · rintro ⟨⟨x, hx⟩, e, he, hpre⟩
            rcases List.mem_cons.1 he with rfl | he
            · obtain ⟨r, rfl⟩ := hpre
              cases r with
              | nil => rw [List.append_nil, hd] at hx; cases hx
              | cons c r =>
                cases r with
                | nil => exact Or.inl ⟨⟨x, hx⟩, c, rfl⟩
                | cons c' r =>
                  have hk : t.fs (e ++ [c]) = some .dir := hB.grown _ _ (by rw [hx]; simp) ⟨c' :: r, by simp⟩ (by simp)
                  exact Or.inr ⟨⟨x, hx⟩, e ++ [c], List.mem_append_right _ ((mem_kidDirs hB hd).2 ⟨hk, c, rfl⟩), ⟨c' :: r, by simp⟩⟩
            · exact Or.inr ⟨⟨x, hx⟩, e, List.mem_append_left _ he, hpre⟩

omit hB in
theorem countP_lt {α : Type} {p q : α → Bool} : ∀ {l : List α}, (∀ x, p x = true → q x = true) → (∃ x ∈ l, q x = true ∧ p x = false) →
    l.countP p < l.countP q
  | [], _, h => by obtain ⟨x, hx, _⟩ := h; cases hx
  | a :: l, hi, h => by
    obtain ⟨x, hx, h1, h2⟩ := h
    have hle : l.countP p ≤ l.countP q := List.countP_mono_left fun x _ => hi x
    rcases List.mem_cons.1 hx with rfl | hx
    · rw [List.countP_cons_of_pos h1, List.countP_cons_of_neg (by simp [h2])]
      omega
    · have ih := countP_lt (l := l) hi ⟨x, hx, h1, h2⟩
      by_cases ha : p a = true
      · rw [List.countP_cons_of_pos ha, List.countP_cons_of_pos (hi a ha)]; omega
      · rw [List.countP_cons_of_neg ha]
        rw [List.countP_cons]
        omega

/-- The walk comes to an end where there is one. -/
theorem walk_ends {input : List Bytes} {all : List (List Bytes)} (ha : ∀ q, input <+: q → t.fs q ≠ none → q ∈ all) :
    ∀ (n : Nat) (ds : List (List Bytes)) (files : List Bytes), (∀ d ∈ ds, t.fs d = some .dir) → (∀ d ∈ ds, input <+: d) →
    ds.Pairwise Aside → all.countP (fun q => decide (∃ d ∈ ds, d <+: q)) ≤ n →
    ∃ ps, walkDir t n [] (ds.map render) files = (.files ps, []) := by
  intro n
  induction n with
  | zero =>
    intro ds files hds hin hp hn
    cases ds with
    | nil => exact ⟨files, rfl⟩
    | cons d ds =>
      exfalso
      have hd := hds d List.mem_cons_self
      have : d ∈ all := ha d (hin d List.mem_cons_self) (by rw [hd]; simp)
      have := (List.countP_pos_iff (p := fun q => decide (∃ e ∈ d :: ds, e <+: q))).2 ⟨d, this, decide_eq_true (⟨d, List.mem_cons_self, List.prefix_refl d⟩ : ∃ e ∈ d :: ds, e <+: d)⟩
      omega
  | succ n ih =>
    intro ds files hds hin hp hn
    cases ds with
    | nil => exact ⟨files, rfl⟩
    | cons d ds =>
      have hd := hds d List.mem_cons_self
      rw [walk_step hB hd]
      refine ih _ _ (dirs_next hB hds) ?_ (aside_next hB hd hp) ?_
      · intro e he
        rcases List.mem_append.1 he with he | he
        · exact hin e (List.mem_cons_of_mem _ he)
        · obtain ⟨_, c, rfl⟩ := (mem_kidDirs hB hd).1 he
          exact (hin d List.mem_cons_self).trans (List.prefix_append _ _)
      · have hlt : all.countP (fun q => decide (∃ e ∈ ds ++ kidDirs t d, e <+: q)) <
            all.countP (fun q => decide (∃ e ∈ d :: ds, e <+: q)) := by
          refine countP_lt (fun q hq => ?_) ⟨d, ha d (hin d List.mem_cons_self) (by rw [hd]; simp), ?_, ?_⟩
          · obtain ⟨e, he, hpre⟩ := of_decide_eq_true hq
            refine decide_eq_true ?_
            rcases List.mem_append.1 he with he | he
            · exact ⟨e, List.mem_cons_of_mem _ he, hpre⟩
            · obtain ⟨_, c, rfl⟩ := (mem_kidDirs hB hd).1 he
              exact ⟨d, List.mem_cons_self, (List.prefix_append _ _).trans hpre⟩
          · exact decide_eq_true ⟨d, List.mem_cons_self, List.prefix_refl d⟩
          · refine decide_eq_false ?_
            rintro ⟨e, he, hpre⟩
            rcases List.mem_append.1 he with he | he
            · exact ((List.pairwise_cons.1 hp).1 e he).2 hpre
            · obtain ⟨_, c, rfl⟩ := (mem_kidDirs hB hd).1 he
              have := hpre.length_le
              rw [List.length_append, List.length_singleton] at this
              omega
        omega

omit hB in
theorem walk_more : ∀ (n : Nat) (os : List OsEv) (ds files ps : List Bytes) (os' : List OsEv),
    walkDir t n os ds files = (.files ps, os') → walkDir t (n + 1) os ds files = (.files ps, os')
  | 0, os, [], files, ps, os', h => h
  | 0, os, d :: ds, files, ps, os', h => by cases h
  | n + 1, os, [], files, ps, os', h => h
  | n + 1, os, d :: ds, files, ps, os', h => by
    rw [walkDir] at h ⊢
    cases he : os.head?.getD .go with
    | fail m => rw [he] at h; cases h
    | go =>
      rw [he] at h
      cases hd : t.fs (OsPath.of d).resolve with
      | none => rw [hd] at h; cases h
      | some x =>
        rw [hd] at h
        cases x with
        | file c => cases h
        | dir => exact walk_more n _ _ _ _ _ h

omit hB in
theorem walk_mono {n m : Nat} (hnm : n ≤ m) {os : List OsEv} {ds files ps : List Bytes} {os' : List OsEv}
    (h : walkDir t n os ds files = (.files ps, os')) : walkDir t m os ds files = (.files ps, os') := by
  induction hnm with
  | refl => exact h
  | step _ ih => exact walk_more _ _ _ _ _ _ ih

theorem walk_files {input : List Bytes} (hd : t.fs input = some .dir) {n : Nat} {os os' : List OsEv} {ps : List Bytes}
    (h : walkDir t n os [render input] [] = (.files ps, os')) :
    ∃ rels, AllFiles t.fs input rels ∧ ps = rels.map fun r => render (input ++ r) := by
  obtain ⟨qs, h1, h2, h3⟩ := walk_found hB n os [input] [] ps os' (by simp [hd]) (List.pairwise_singleton _ _) h
  have hpre : ∀ q ∈ qs, ∃ r, q = input ++ r := by
    intro q hq
    obtain ⟨_, d, hd', r, hr⟩ := (h3 q).1 hq
    rw [List.mem_singleton] at hd'
    exact ⟨r, by rw [← hr, hd']⟩
  have hmap : (qs.map (List.drop input.length)).map (input ++ ·) = qs := by
    rw [List.map_map]
    conv => rhs; rw [← List.map_id qs]
    refine List.map_congr_left fun q hq => ?_
    obtain ⟨r, rfl⟩ := hpre q hq
    simp
  refine ⟨qs.map (List.drop input.length), ⟨?_, fun r => ?_⟩, ?_⟩
  · rw [← hmap] at h2
    exact (List.pairwise_map.1 h2).imp fun hne he => hne (by rw [he])
  · constructor
    · intro hr
      obtain ⟨q, hq, rfl⟩ := List.mem_map.1 hr
      obtain ⟨r, rfl⟩ := hpre q hq
      rw [List.drop_left]
      exact ((h3 _).1 hq).1
    · intro hx
      refine List.mem_map.2 ⟨input ++ r, (h3 _).2 ⟨hx, input, List.mem_singleton_self _, List.prefix_append _ _⟩, ?_⟩
      rw [List.drop_left]
  · rw [h1, List.nil_append]
    conv => lhs; rw [← hmap]
    rw [List.map_map]
    rfl

end AsyncZip
