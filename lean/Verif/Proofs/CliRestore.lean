import Verif.Proofs.CliPack
import Verif.Props.ExtractAll
/-!
# Helper lemmas about extracting what was packed
-/

namespace AsyncZip
open Spec

/-! ## Names -/

theorem replaceBackslash_id : ∀ {s : Bytes}, (0x5C : UInt8) ∉ s → replaceBackslash s = s
  | [], _ => rfl
  | b :: s, h => by
    rw [List.mem_cons, not_or] at h
    have ih := replaceBackslash_id h.2
    unfold replaceBackslash at ih ⊢
    rw [List.map_cons, ih, if_neg (fun h' => h.1 h'.symm)]

theorem joined_plain : ∀ {r : List Bytes}, (∀ c ∈ r, (0x5C : UInt8) ∉ c) → (0x5C : UInt8) ∉ joined r
  | [], _ => by simp [joined]
  | [c], h => h c List.mem_cons_self
  | c :: c' :: r, h => by
    rw [joined_cons c (by simp), List.mem_append, List.mem_cons]
    rintro (h' | h' | h')
    · exact h c List.mem_cons_self h'
    · exact absurd h' (by decide)
    · exact joined_plain (r := c' :: r) (fun x hx => h x (List.mem_cons_of_mem _ hx)) h'

theorem split_joined : ∀ {r : List Bytes}, r ≠ [] → (∀ c ∈ r, (0x2F : UInt8) ∉ c) → splitSlash (joined r) = r
  | [], h, _ => absurd rfl h
  | [c], _, h => splitSlash_flat (h c List.mem_cons_self)
  | c :: c' :: r, _, h => by
    rw [joined_cons c (by simp), splitSlash_append, splitSlash_flat (h c List.mem_cons_self),
      split_joined (r := c' :: r) (by simp) (fun x hx => h x (List.mem_cons_of_mem _ hx))]
    rfl

/-- What a sanitizer leaves as it is. -/
structure Tame (san : Bytes → Bytes) (c : Bytes) : Prop where
  same : san c = c
  plain : (0x5C : UInt8) ∉ c

theorem pieces_joined {r : List Bytes} (hr : r ≠ []) (hp : ∀ c ∈ r, PathPart c) (ht : ∀ c ∈ r, (0x5C : UInt8) ∉ c) :
    ((joined r).splitOnP fun b => b = 0x2F ∨ b = 0x5C) = r := by
  rw [← split_names, replaceBackslash_id (joined_plain ht), split_joined hr fun c hc => (hp c hc).2.1]

theorem target_joined {san : Bytes → Bytes} {r : List Bytes} (hr : r ≠ []) (hp : ∀ c ∈ r, PathPart c) (ht : ∀ c ∈ r, Tame san c) :
    target san (joined r) = r := by
  unfold target
  rw [pieces_joined hr hp fun c hc => (ht c hc).plain]
  rw [show r.map san = r from by
    conv => rhs; rw [← List.map_id r]
    exact List.map_congr_left fun c hc => (ht c hc).same]
  exact List.filter_eq_self.2 fun c hc => by simpa using (hp c hc).1

theorem lastPiece_joined {san : Bytes → Bytes} {r : List Bytes} (hr : r ≠ []) (hp : ∀ c ∈ r, PathPart c) (ht : ∀ c ∈ r, Tame san c) :
    san (lastPiece (joined r)) ≠ [] := by
  unfold lastPiece
  rw [pieces_joined hr hp fun c hc => (ht c hc).plain, List.getLast?_eq_some_getLast hr]
  show san (r.getLast hr) ≠ []
  rw [(ht _ (List.getLast_mem hr)).same]
  exact (hp _ (List.getLast_mem hr)).1

theorem joined_last : ∀ {r : List Bytes}, r ≠ [] → (∀ c ∈ r, PathPart c) → (joined r).getLast? ≠ some 0x2F ∧ joined r ≠ []
  | [], h, _ => absurd rfl h
  | [c], _, h => ⟨fun h' => (h c List.mem_cons_self).2.1 (List.mem_of_getLast? h'), (h c List.mem_cons_self).1⟩
  | c :: c' :: r, _, h => by
    obtain ⟨h1, h2⟩ := joined_last (r := c' :: r) (by simp) (fun x hx => h x (List.mem_cons_of_mem _ hx))
    rw [joined_cons c (by simp), show ∀ x : Bytes, c ++ 0x2F :: x = (c ++ [0x2F]) ++ x from fun x => by simp,
      List.getLast?_append_of_ne_nil _ h2]
    exact ⟨h1, by simp⟩

/-! ## Calls -/

theorem packCalls_packs {C : Codec} (evs : Nat → List Ev) : ∀ (items : List (Bytes × Bytes)) (k : Nat) (rs : List OpResult),
    (∀ x ∈ items, utf8Valid x.1 = true ∧ x.1 ≠ []) → rs.length = items.length → allDone rs → Packs C (packCalls evs k items) rs items
  | [], k, rs, _, hl, _ => by
    rw [List.length_nil, List.length_eq_zero_iff] at hl
    subst hl
    exact .nil
  | x :: items, k, rs, hx, hl, hd => by
    cases rs with
    | nil => cases hl
    | cons r rs =>
      have hr := hd r List.mem_cons_self
      subst hr
      obtain ⟨h1, h2⟩ := hx x List.mem_cons_self
      exact .listed (e := ZipEntry.new ⟨.utf8, x.1, none⟩ .deflate) rfl rfl rfl h2 (Constructed.ofString ⟨x.1, h1⟩)
        ⟨fun i h => (by cases h), fun i h => (by cases h)⟩ (.whole _ _ _ _)
        (packCalls_packs evs items (k + 1) rs (fun y hy => hx y (List.mem_cons_of_mem _ hy)) (by simpa using hl)
          fun y hy => hd y (List.mem_cons_of_mem _ hy))

theorem packCalls_mem {evs : Nat → List Ev} : ∀ {items : List (Bytes × Bytes)} {k : Nat} {op : Op}, op ∈ packCalls evs k items →
    ∃ x ∈ items, ∃ ev, op = .whole (ZipEntry.new ⟨.utf8, x.1, none⟩ .deflate) x.2 false ev
  | [], _, _, h => by cases h
  | x :: items, k, op, h => by
    rcases List.mem_cons.1 h with rfl | h
    · exact ⟨x, List.mem_cons_self, evs k, rfl⟩
    · obtain ⟨y, hy, h⟩ := packCalls_mem h
      exact ⟨y, List.mem_cons_of_mem _ hy, h⟩

theorem packCalls_length (evs : Nat → List Ev) : ∀ (items : List (Bytes × Bytes)) (k : Nat), (packCalls evs k items).length = items.length
  | [], _ => rfl
  | _ :: items, k => by rw [packCalls, List.length_cons, List.length_cons, packCalls_length evs items]

theorem packCalls_comment (evs : Nat → List Ev) : ∀ (items : List (Bytes × Bytes)) (k : Nat), finalComment none (packCalls evs k items) = none
  | [], _ => rfl
  | _ :: items, k => packCalls_comment evs items (k + 1)

theorem program_sizes {C : Codec} {evs : Nat → List Ev} {P : UInt64 → Prop} : ∀ {items : List (Bytes × Bytes)} {k : Nat} {rs : List OpResult} {ls : List Listing},
    Program C (packCalls evs k items) rs ls →
    (∀ x ∈ items, P (UInt64.ofNat x.2.length) ∧ ∀ z, StoredAs C .deflate .default x.2 z → P (UInt64.ofNat z.length)) →
    ∀ l ∈ ls, P l.us ∧ P l.cs
  | [], k, rs, ls, h, _ => by
    cases h
    exact fun l hl => (by cases hl)
  | x :: items, k, rs, ls, h, hx => by
    rw [packCalls] at h
    cases h with
    | listed ha hs =>
      intro l hl
      rcases List.mem_cons.1 hl with rfl | hl
      · cases ha with
        | whole e d ev r stored h hst => exact ⟨(hx x List.mem_cons_self).1, (hx x List.mem_cons_self).2 stored hst⟩
      · exact program_sizes hs (fun y hy => hx y (List.mem_cons_of_mem _ hy)) l hl
    | other hn hs => exact program_sizes hs (fun y hy => hx y (List.mem_cons_of_mem _ hy))

/-! ## Extraction leaves a disk as there are -/

theorem extractLoop_grown {C : Codec} {san : Bytes → Bytes} (hs : Sanitizes san) {out : List Bytes} (ho : ∀ c ∈ out, PathPart c)
    {f : ZipFile} : ∀ (es : List StoredZipEntry) (index : Nat) (s : RState) (fs : FS) (s' : RState) (d' : Disk), Grown fs →
    extractLoop C san (render out) f es index s ⟨fs, []⟩ = (true, s', d') → Grown d'.fs
  | [], _, _, _, _, _, hg, h => by cases h; exact hg
  | e :: es, index, s, fs, s', d', hg, h => by
    rw [extractLoop] at h
    cases hx : extractEntry C san (render out) f index e.entry s ⟨fs, []⟩ with
    | mk b r =>
      obtain ⟨s1, d1⟩ := r
      rw [hx] at h
      cases b with
      | false => cases h
      | true =>
        simp only at h
        obtain ⟨name, _, hroom, er, s2, _, hcase⟩ := (extractEntry_iff hs ho hg s1 d1).1 hx
        have hb : blocked fs (out ++ target san name) = false := blocked_iff.2 fun r c hr => hroom.clear r c hr
        rcases hcase with ⟨_, _, rfl⟩ | ⟨hf, b, er', _, rfl⟩
        · exact extractLoop_grown hs ho es _ _ _ _ _ (laid_grown hg hb fun h => absurd rfl h) h
        · exact extractLoop_grown hs ho es _ _ _ _ _ (laid_grown hg hb fun _ => (hroom.free hf).2) h

theorem unzip_grown {b : Build} {C : Codec} {san : Bytes → Bytes} (hs : Sanitizes san) {out : List Bytes} (ho : ∀ c ∈ out, PathPart c)
    {s : RState} {fs : FS} (hg : Grown fs) {d' : Disk} (h : unzipFile b C san (render out) s ⟨fs, []⟩ = (true, d')) : Grown d'.fs := by
  unfold unzipFile at h
  cases hf : openFile b s with
  | mk r s1 =>
    rw [hf] at h
    cases r with
    | error e => cases h
    | ok f =>
      simp only at h
      cases hl : extractLoop C san (render out) f f.entries 0 s1 ⟨fs, []⟩ with
      | mk x y =>
        obtain ⟨s2, d2⟩ := y
        rw [hl] at h
        cases h
        exact extractLoop_grown hs ho _ _ _ _ _ _ hg hl

end AsyncZip
