import Verif.Proofs.CliWalk
import Verif.Proofs.Utf8
/-!
# Helper lemmas about packing what was found
-/

namespace AsyncZip
open Spec

/-! ## Strings -/

theorem utf8Valid_append {a : Bytes} (h : utf8Valid a = true) (r : Bytes) : utf8Valid (a ++ r) = utf8Valid r := by
  obtain ⟨text, h1, rfl⟩ := (utf8Valid_iff a).1 h
  clear h
  induction text with
  | nil => rfl
  | cons v vs ih =>
    rw [List.flatMap_cons, List.append_assoc, utf8Valid_encode v (h1 v List.mem_cons_self)]
    exact ih fun v hv => h1 v (List.mem_cons_of_mem _ hv)

theorem utf8Valid_slash (r : Bytes) : utf8Valid (0x2F :: r) = utf8Valid r := by
  rw [utf8Valid.eq_def]
  exact if_pos (by decide)

theorem valid_head {s : Bytes} (h : utf8Valid s = true) : (s.head?.all fun b => !isCont b) = true := by
  cases s with
  | nil => rfl
  | cons b r =>
    show (!isCont b) = true
    rw [Bool.not_eq_true']
    by_contra hc
    rw [Bool.not_eq_false] at hc
    unfold isCont at hc
    rw [Bool.and_eq_true, decide_eq_true_eq, decide_eq_true_eq, UInt8.le_iff_toNat_le, UInt8.le_iff_toNat_le] at hc
    have h1 : (0x80 : UInt8).toNat = 128 := rfl
    have h2 : (0xBF : UInt8).toNat = 191 := rfl
    rw [h1, h2] at hc
    rw [utf8Valid.eq_def] at h
    simp only at h
    rw [if_neg (by rw [UInt8.lt_iff_toNat_lt, h1]; omega)] at h
    have e1 : (0xC2 : UInt8).toNat = 194 := rfl
    have e2 : (0xE0 : UInt8).toNat = 224 := rfl
    have e3 : (0xF0 : UInt8).toNat = 240 := rfl
    rw [if_neg (by rw [Bool.and_eq_true, decide_eq_true_eq, UInt8.le_iff_toNat_le, e1]; omega),
      if_neg (by rw [Bool.and_eq_true, decide_eq_true_eq, UInt8.le_iff_toNat_le, e2]; omega),
      if_neg (by rw [Bool.and_eq_true, decide_eq_true_eq, UInt8.le_iff_toNat_le, e3]; omega)] at h
    cases h

theorem joined_cons (c : Bytes) {r : List Bytes} (hr : r ≠ []) : joined (c :: r) = c ++ 0x2F :: joined r := by
  cases r with
  | nil => exact absurd rfl hr
  | cons a l => rfl

theorem flatMap_joined : ∀ {r : List Bytes}, r ≠ [] → r.flatMap (0x2F :: ·) = 0x2F :: joined r
  | [], h => absurd rfl h
  | [c], _ => by simp [joined]
  | c :: c' :: r, _ => by
    rw [List.flatMap_cons, flatMap_joined (r := c' :: r) (by simp), joined_cons c (by simp)]
    simp

theorem render_append {input r : List Bytes} (hi : input ≠ []) (hr : r ≠ []) :
    render (input ++ r) = render input ++ 0x2F :: joined r := by
  unfold render
  rw [if_neg (by simp [hi]), if_neg hi, List.flatMap_append, flatMap_joined hr]

theorem slice_name {input r : List Bytes} (hi : input ≠ []) (hr : r ≠ []) (hv : utf8Valid (render input) = true)
    (hp : utf8Valid (render (input ++ r)) = true) :
    utf8Valid (joined r) = true ∧ sliceFrom (render (input ++ r)) ((render input).length + 1) = some (joined r) := by
  rw [render_append hi hr] at hp ⊢
  have hj : utf8Valid (joined r) = true := by
    rw [utf8Valid_append hv, utf8Valid_slash] at hp
    exact hp
  refine ⟨hj, ?_⟩
  have hd : (render input ++ 0x2F :: joined r).drop ((render input).length + 1) = joined r := by
    rw [List.drop_append]
    simp
  unfold sliceFrom
  rw [hd]
  exact if_pos ⟨by rw [List.length_append, List.length_cons]; omega, valid_head hj⟩

theorem valid_path {input r : List Bytes} (hi : input ≠ []) (hr : r ≠ []) (hv : utf8Valid (render input) = true) :
    utf8Valid (render (input ++ r)) = utf8Valid (joined r) := by
  rw [render_append hi hr, utf8Valid_append hv, utf8Valid_slash]

theorem base_prefix {input r : List Bytes} (hi : input ≠ []) (hr : r ≠ []) : (render input).isPrefixOf (render (input ++ r)) = true := by
  rw [render_append hi hr, List.isPrefixOf_iff_prefix]
  exact List.prefix_append _ _

/-! ## The loop -/

/-- The call went well. -/
def allDone (rs : List OpResult) : Prop := ∀ r ∈ rs, r = .whole (.ok ())

theorem ofRes_done {α : Type} {r : Res α} {a : α} : Packing.ofRes r = .done a ↔ r = .ok a := by
  cases r with
  | ok b => exact ⟨fun h => (by cases h; rfl), fun h => (by cases h; rfl)⟩
  | error e => cases e <;> exact ⟨fun h => (by cases h), fun h => (by cases h)⟩

theorem packEntry_done {C : Codec} {t : Tree} {o : OsEv} {evs : List Ev} {name : Bytes} {q : List Bytes} {x : Bytes} {zw zw' : ZipWriter}
    (hq : ∀ c ∈ q, PathPart c) (hx : t.fs q = some (.file x)) :
    packEntry C t o evs name (render q) zw = (.done (), zw') ↔
      o = .go ∧ runOp C zw (.whole (ZipEntry.new ⟨.utf8, name, none⟩ .deflate) x false evs) = (.whole (.ok ()), zw') := by
  unfold packEntry
  rw [resolve_render hq, hx]
  cases o with
  | fail n => exact ⟨fun h => (by cases h), fun h => (by cases h.1)⟩
  | go =>
    show (Packing.ofRes (writeWhole C _ x false { zw, evs }).1, (writeWhole C _ x false { zw, evs }).2.zw) = _ ↔ _ ∧
      (OpResult.whole (writeWhole C _ x false { zw, evs }).1, (writeWhole C _ x false { zw, evs }).2.zw) = _
    rw [Prod.mk.injEq, Prod.mk.injEq, ofRes_done]
    constructor
    · rintro ⟨h1, h2⟩
      exact ⟨rfl, congrArg _ h1, h2⟩
    · rintro ⟨_, h1, h2⟩
      refine ⟨?_, h2⟩
      cases h1' : (writeWhole C (cliEntry name) x false { zw, evs }).1 with
      | ok u => rfl
      | error e =>
        rw [show (writeWhole C (ZipEntry.new ⟨.utf8, name, none⟩ .deflate) x false { zw, evs }).1 = .error e from h1'] at h1
        cases h1

theorem packLoop_done {C : Codec} {t : Tree} {input : List Bytes} (hi : input ≠ []) (hv : utf8Valid (render input) = true)
    (evs : Nat → List Ev) : ∀ (rels : List (List Bytes)) (k : Nat) (os : List OsEv) (zw : ZipWriter) (k' : Nat) (zw' : ZipWriter),
    (∀ r ∈ rels, r ≠ [] ∧ (∀ c ∈ input ++ r, PathPart c) ∧ ∃ x, t.fs (input ++ r) = some (.file x)) →
    packLoop C t (render input) evs (rels.map fun r => render (input ++ r)) k os zw = (.done k', zw') →
    k' = k + rels.length ∧ (∀ r ∈ rels, utf8Valid (joined r) = true) ∧
      ∃ rs, runOps C zw (packCalls evs k (itemsOf t.fs input rels)) = (rs, zw') ∧ allDone rs := by
  intro rels
  induction rels with
  | nil =>
    intro k os zw k' zw' _ h
    cases h
    exact ⟨rfl, fun r hr => absurd hr (by simp), [], rfl, fun r hr => absurd hr (by simp)⟩
  | cons r rels ih =>
    intro k os zw k' zw' hr h
    obtain ⟨h1, h2, x, h3⟩ := hr r List.mem_cons_self
    rw [List.map_cons, packLoop] at h
    by_cases hp : utf8Valid (render (input ++ r)) = true
    · obtain ⟨hj, hs⟩ := slice_name hi h1 hv hp
      rw [if_pos ⟨hp, base_prefix hi h1⟩, hs] at h
      simp only at h
      cases he : packEntry C t (os.head?.getD .go) (evs k) (joined r) (render (input ++ r)) zw with
      | mk a zw1 =>
        rw [he] at h
        cases a with
        | refused => cases h
        | panic => cases h
        | running => cases h
        | done u =>
          obtain ⟨g1, g2, rs, g3, g4⟩ := ih _ _ _ _ _ (fun r' h' => hr r' (List.mem_cons_of_mem _ h')) h
          obtain ⟨_, h5⟩ := (packEntry_done h2 h3).1 he
          refine ⟨by rw [g1, List.length_cons]; omega, ?_, .whole (.ok ()) :: rs, ?_, ?_⟩
          · intro r' h'
            rcases List.mem_cons.1 h' with rfl | h'
            · exact hj
            · exact g2 r' h'
          · rw [itemsOf, List.map_cons, packCalls, runOps]
            rw [show contentAt t.fs (input ++ r) = x by unfold contentAt; rw [h3], h5]
            simp only
            rw [show List.map (fun r => (joined r, contentAt t.fs (input ++ r))) rels = itemsOf t.fs input rels from rfl, g3]
          · intro y hy
            rcases List.mem_cons.1 hy with rfl | hy
            · rfl
            · exact g4 y hy
    · rw [if_neg (fun h' => hp h'.1)] at h
      cases h

theorem packLoop_ok {C : Codec} {t : Tree} {input : List Bytes} (hi : input ≠ []) (hv : utf8Valid (render input) = true)
    (evs : Nat → List Ev) : ∀ (rels : List (List Bytes)) (k : Nat) (zw zw' : ZipWriter) (rs : List OpResult),
    (∀ r ∈ rels, r ≠ [] ∧ (∀ c ∈ input ++ r, PathPart c) ∧ ∃ x, t.fs (input ++ r) = some (.file x)) →
    (∀ r ∈ rels, utf8Valid (joined r) = true) →
    runOps C zw (packCalls evs k (itemsOf t.fs input rels)) = (rs, zw') → allDone rs →
    packLoop C t (render input) evs (rels.map fun r => render (input ++ r)) k [] zw = (.done (k + rels.length), zw') := by
  intro rels
  induction rels with
  | nil =>
    intro k zw zw' rs _ _ h _
    cases h
    rfl
  | cons r rels ih =>
    intro k zw zw' rs hr hu h hd
    obtain ⟨h1, h2, x, h3⟩ := hr r List.mem_cons_self
    have hj := hu r List.mem_cons_self
    have hp : utf8Valid (render (input ++ r)) = true := by rw [valid_path hi h1 hv]; exact hj
    obtain ⟨_, hs⟩ := slice_name hi h1 hv hp
    rw [List.map_cons, packLoop, if_pos ⟨hp, base_prefix hi h1⟩, hs]
    rw [itemsOf, List.map_cons, packCalls, runOps] at h
    rw [show contentAt t.fs (input ++ r) = x by unfold contentAt; rw [h3]] at h
    cases hop : runOp C zw (.whole (ZipEntry.new ⟨.utf8, joined r, none⟩ .deflate) x false (evs k)) with
    | mk a zw1 =>
      simp only at h
      rw [hop] at h
      simp only at h
      cases hops : runOps C zw1 (packCalls evs (k + 1) (itemsOf t.fs input rels)) with
      | mk rs1 zw2 =>
        rw [show List.map (fun r => (joined r, contentAt t.fs (input ++ r))) rels = itemsOf t.fs input rels from rfl, hops] at h
        cases h
        have ha := hd a List.mem_cons_self
        subst ha
        have hpe := (packEntry_done (C := C) (o := .go) (evs := evs k) (name := joined r) (zw := zw) (zw' := zw1) h2 h3).2 ⟨rfl, hop⟩
        show (match packEntry C t OsEv.go (evs k) (joined r) (render (input ++ r)) zw with
          | (.done _, zw') => packLoop C t (render input) evs (rels.map fun r => render (input ++ r)) (k + 1) [] zw'
          | (.refused, zw') => (.refused, zw')
          | (.panic, zw') => (.panic, zw')
          | (.running, zw') => (.running, zw')) = _
        rw [hpe]
        simp only
        rw [ih (k + 1) zw1 zw2 rs1 (fun r' h' => hr r' (List.mem_cons_of_mem _ h')) (fun r' h' => hu r' (List.mem_cons_of_mem _ h'))
          hops (fun y hy => hd y (List.mem_cons_of_mem _ hy)), List.length_cons]
        congr 2
        omega

end AsyncZip
