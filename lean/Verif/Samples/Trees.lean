import Verif.Spec.CliCompress
/-!
# Small disks
-/

namespace AsyncZip.Samples
open AsyncZip.Spec

/-- A disk with these things on it; directories are listed in this order. -/
def treeOf (l : List (List Bytes × Node)) : Tree where
  fs q := (l.find? (fun x => x.1 == q)).map (·.2)
  list q := (l.filter fun x => x.1 ≠ [] ∧ x.1.dropLast = q).map fun x => x.1.getLast?.getD []

theorem treeOf_mem {l : List (List Bytes × Node)} {q : List Bytes} (h : (treeOf l).fs q ≠ none) : ∃ x ∈ l, x.1 = q := by
  change (l.find? (fun x => x.1 == q)).map (·.2) ≠ none at h
  cases hf : l.find? (fun x => x.1 == q) with
  | none => rw [hf] at h; exact absurd rfl h
  | some x => exact ⟨x, List.mem_of_find?_eq_some hf, by simpa using List.find?_some hf⟩

theorem treeOf_some {l : List (List Bytes × Node)} {x : List Bytes × Node} (h : x ∈ l) : (treeOf l).fs x.1 ≠ none := by
  show (l.find? (fun y => y.1 == x.1)).map (·.2) ≠ none
  cases hf : l.find? (fun y => y.1 == x.1) with
  | none => exact absurd (List.find?_eq_none.1 hf x h) (by simp)
  | some y => simp

theorem last_split {q : List Bytes} (h : q ≠ []) : q = q.dropLast ++ [q.getLast?.getD []] := by
  rw [List.getLast?_eq_some_getLast h]
  exact (List.dropLast_concat_getLast h).symm

theorem treeOf_browsable {l : List (List Bytes × Node)}
    (h1 : ∀ x ∈ l, ∀ n ∈ List.range x.1.length, (treeOf l).fs (x.1.take n) = some .dir)
    (h2 : ∀ x ∈ l, ∀ c ∈ x.1, c ≠ [] ∧ (0x2F : UInt8) ∉ c ∧ c ≠ [0x2E] ∧ c ≠ [0x2E, 0x2E]) (h3 : (l.map Prod.fst).Nodup) :
    Browsable (treeOf l) where
  grown q r hq hr hne := by
    obtain ⟨x, hx, rfl⟩ := treeOf_mem hq
    rw [List.prefix_iff_eq_take.1 hr]
    refine h1 x hx r.length (List.mem_range.2 ?_)
    have := hr.length_le
    rcases Nat.lt_or_ge r.length x.1.length with h | h
    · exact h
    · exact absurd (hr.eq_of_length (by omega)) hne
  parts q hq := by
    obtain ⟨x, hx, rfl⟩ := treeOf_mem hq
    exact h2 x hx
  once q _ := by
    show List.Nodup (List.map _ _)
    refine List.pairwise_map.2 ?_
    have h4 : (l.filter fun x => x.1 ≠ [] ∧ x.1.dropLast = q).Pairwise fun a b => a.1 ≠ b.1 :=
      (List.pairwise_map.1 h3).filter _
    refine h4.imp_of_mem fun {a b} ha hb hab he => hab ?_
    have ha := (List.mem_filter.1 ha).2
    have hb := (List.mem_filter.1 hb).2
    simp only [decide_eq_true_eq] at ha hb
    rw [last_split ha.1, last_split hb.1, ha.2, hb.2, he]
  all q c _ := by
    show c ∈ List.map _ _ ↔ _
    rw [List.mem_map]
    constructor
    · rintro ⟨x, hx, rfl⟩
      obtain ⟨g1, g2⟩ := List.mem_filter.1 hx
      simp only [decide_eq_true_eq] at g2
      rw [← g2.2, ← last_split g2.1]
      exact treeOf_some g1
    · intro h
      obtain ⟨x, hx, he⟩ := treeOf_mem h
      exact ⟨x, List.mem_filter.2 ⟨hx, by simp [he]⟩, by simp [he]⟩

theorem treeOf_bounded (l : List (List Bytes × Node)) (input : List Bytes) : Bounded (treeOf l).fs input :=
  ⟨l.map Prod.fst, fun _ _ hq => by obtain ⟨x, hx, rfl⟩ := treeOf_mem hq; exact List.mem_map_of_mem hx⟩

/-- `/h` with the files `a` and `d/b` and the empty directory `e`. -/
def home : Tree := treeOf
  [([], .dir), ([[104]], .dir), ([[104], [97]], .file [1, 2]), ([[104], [100]], .dir), ([[104], [100], [98]], .file [7]), ([[104], [101]], .dir)]

theorem home_browsable : Browsable home := treeOf_browsable (by decide +kernel) (by decide +kernel) (by decide +kernel)

/-- `/ab`. -/
def rootFile : Tree := treeOf [([], .dir), ([[97, 98]], .file [7])]

theorem rootFile_browsable : Browsable rootFile := treeOf_browsable (by decide +kernel) (by decide +kernel) (by decide +kernel)

/-- `/é`. -/
def rootAccent : Tree := treeOf [([], .dir), ([[0xC3, 0xA9]], .file [7])]

theorem rootAccent_browsable : Browsable rootAccent := treeOf_browsable (by decide +kernel) (by decide +kernel) (by decide +kernel)

end AsyncZip.Samples
