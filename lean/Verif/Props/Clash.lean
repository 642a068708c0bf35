import Verif.Props.Fits
import Verif.Props.Tiling
/-!
# C36, C39: a size of exactly 0xFFFFFFFF beyond 4 GiB

`Clash` is excluded from C36, C39 and C41. This is what the bytes say where it occurs, and that it does occur.
-/

namespace AsyncZip
open Spec Wr

theorem blocks_nil {rs : List (Nat × Bytes)} {tail : Bytes} (h : Blocks [] rs tail) : rs = [] ∧ tail = [] := by
  cases h with
  | nil => exact ⟨rfl, rfl⟩
  | cons _ _ _ hl _ => exact absurd hl (by simp)

/-- What a record declares is determined by the bytes. -/
theorem blocks_unique {b : Bytes} {rs : List (Nat × Bytes)} {t : Bytes} (h : Blocks b rs t) (ht : t = []) :
    ∀ {rs' : List (Nat × Bytes)}, Blocks b rs' [] → rs = rs' := by
  induction h with
  | nil tail => subst ht; exact fun h' => (blocks_nil h').1.symm
  | cons b rs tail hl _ ih =>
    intro rs' h'
    cases h' with
    | nil => simp at hl
    | cons _ rs' _ hl' hr' => rw [ih ht hr']

theorem declares_unique {data : Bytes} {j us cs off us' cs' off' : Nat} (h : Declares data j us cs off)
    (h' : Declares data j us' cs' off') : us = us' ∧ cs = cs' ∧ off = off' := by
  obtain ⟨bl, h1, h2, h3, h4⟩ := h
  obtain ⟨bl', h1', h2', h3', h4'⟩ := h'
  have := blocks_unique h1 rfl h1'
  subst this
  exact ⟨h2.trans h2'.symm, h3.trans h3'.symm, h4.trans h4'.symm⟩

/-- The length of a record. -/
theorem Good.length {force : Bool} {off : Nat} {x a rest : Bytes} {l : Listing} {c : CdEntry}
    (g : Good force off x l c) (hown : ∀ f ∈ l.entry.extraFields, OwnField f) (ha : a.length = off) :
    30 + l.stored.length ≤ x.length ∧ x.length ≤ l.stored.length + 200000 := by
  have h := g.recordEnd (a := a) (rest := rest) (own_noZip64 hown) rfl ha
  have h1 := fieldAt_lt' (a ++ (x ++ rest)) (off + 26) 2
  have h2 := fieldAt_lt' (a ++ (x ++ rest)) (off + 28) 2
  unfold Spec.recordEnd dataStart at h
  split at h <;> omega

/-- C36, C39. In every closed archive the record of an entry with a clash says that its local header is at 0xFFFFFFFF, where
it is not, and gives its offset for a size. -/
theorem C36_clash_misread (C : Codec) (sink sink' : Sink) (zw : ZipWriter) (h : Created sink zw) (hs : sink.bytes = [])
    (ops : List Op) (evs : List Ev) (hc : (runArchive C zw ops evs).2.1 = .ok sink')
    (hown : ∀ op ∈ ops, ∀ f ∈ userFields op, OwnField f) (hsize : sink'.bytes.length < 2 ^ 64) :
    ∃ ls offs dir stop js, Program C ops (runArchive C zw ops evs).1 ls ∧ ls.length = offs.length ∧
      DirectoryOf sink'.bytes (runArchive C zw ops evs).2.2.isZip64 (archiveComment ops) dir stop js ∧
      List.Forall₂ (fun (q : Listing × Nat) j => OccursAt sink'.bytes sigLocal q.2 ∧
        OccursAt sink'.bytes q.1.entry.filename.basic (q.2 + 30) ∧ Describes32 sink'.bytes j q.1 ∧
        (Clash q.2 q.1 → ∀ us cs off, Declares sink'.bytes j us cs off → off = 0xFFFFFFFF ∧ q.2 ≠ off ∧ (us = q.2 ∨ cs = q.2)))
        (ls.zip offs) js := by
  obtain ⟨out, ps, offs, cd, z, fin⟩ := finished h hs hc (J := True) (Or.inl trivial)
  obtain ⟨js, h1, h2, _⟩ := fin.onBytes (fun op ho f hf => (hown op ho f hf).1) hsize
  refine ⟨ps.map Prod.fst, offs, out.length, out.length + cd.length, js, fin.program, ?_, ?_, ?_⟩
  · rw [List.length_map]; exact fin.placed.length_eq
  · rw [← fin.zip]; exact h1
  · refine (forall₂_mem h2).imp fun q j hq => ⟨hq.2.1.1, hq.2.1.2, hq.2.2.1, fun hcl us cs off hd => ?_⟩
    obtain ⟨p, hp, hpq⟩ := List.mem_map.1 (List.of_mem_zip hq.1).1
    have hd' := (hq.2.2.2 (by rw [← hpq]; exact fin.own hown p hp)).2 hcl
    obtain ⟨rfl, rfl, rfl⟩ := declares_unique hd' hd
    refine ⟨rfl, ?_, ?_⟩
    · have := hcl.2.1
      omega
    · unfold clashSizes
      split
      · exact Or.inl rfl
      · exact Or.inr rfl

namespace Samples

/-- A file whose uncompressed size, as far as its maker is concerned, is 4 GiB - 1. -/
def vastEntry : ZipEntry := { deflatedEntry with uncompressedSize := 0xFFFFFFFF }

end Samples

/-- Two calls in a row. -/
theorem two_whole {C : Codec} {zw : ZipWriter} {e₁ e₂ : ZipEntry} {d₁ d₂ : Bytes} {p₁ p₂ : Bool} {evs₁ evs₂ evs : List Ev}
    (w₁ : (writeWhole C e₁ d₁ p₁ ⟨zw, evs₁⟩).1 = .ok ())
    (w₂ : (writeWhole C e₂ d₂ p₂ ⟨(runOp C zw (.whole e₁ d₁ p₁ evs₁)).2, evs₂⟩).1 = .ok ()) :
    (runArchive C zw [.whole e₁ d₁ p₁ evs₁, .whole e₂ d₂ p₂ evs₂] evs).1 = [.whole (.ok ()), .whole (.ok ())] := by
  show [OpResult.whole (writeWhole C e₁ d₁ p₁ ⟨zw, evs₁⟩).1,
    OpResult.whole (writeWhole C e₂ d₂ p₂ ⟨(runOp C zw (.whole e₁ d₁ p₁ evs₁)).2, evs₂⟩).1] = _
  rw [w₁, w₂]

/-- C36, C39 as written do not hold: after more than 4 GiB, an entry whose size is 4 GiB - 1 is written and listed without an
error, and its record in the directory points elsewhere. -/
theorem C36_clash_fails (C : Codec) (d : Bytes) (hd : 0xFFFFFFFF < d.length) (hl : d.length < 2 ^ 63) :
    ∃ evs₁ evs₂ evs sink' dir stop j₁ j₂ off,
      (runArchive C Samples.fresh [.whole Samples.storedEntry d false evs₁, .whole Samples.vastEntry [1] true evs₂] evs).1 =
        [.whole (.ok ()), .whole (.ok ())] ∧
      (runArchive C Samples.fresh [.whole Samples.storedEntry d false evs₁, .whole Samples.vastEntry [1] true evs₂] evs).2.1 =
        .ok sink' ∧
      DirectoryOf sink'.bytes true [] dir stop [j₁, j₂] ∧ 0xFFFFFFFF < off ∧ OccursAt sink'.bytes sigLocal off ∧
      OccursAt sink'.bytes [98] (off + 30) ∧ Declares sink'.bytes j₂ off 1 0xFFFFFFFF := by
  obtain ⟨n₁, w₁⟩ := C52_completes C Samples.fresh rfl Samples.storedEntry d false ⟨by decide, by decide⟩ 0
  obtain ⟨n₂, w₂⟩ := C52_completes C
    (runOp C Samples.fresh (.whole Samples.storedEntry d false (List.replicate n₁ (.accept 1)))).2 ((runOp_ext C _ _).force)
    Samples.vastEntry [1] true ⟨by decide, by decide⟩ 0
  refine ⟨List.replicate n₁ (.accept 1), List.replicate n₂ (.accept 1), ?_⟩
  generalize hops : [Op.whole Samples.storedEntry d false (List.replicate n₁ (.accept 1)),
    Op.whole Samples.vastEntry [1] true (List.replicate n₂ (.accept 1))] = ops
  have hres : ∀ evs, (runArchive C Samples.fresh ops evs).1 = [.whole (.ok ()), .whole (.ok ())] := by
    intro evs
    rw [← hops]
    exact two_whole w₁ w₂
  obtain ⟨n, sink', hc⟩ := close_succeeds C ⟨[], 0, 0⟩ Samples.fresh .new ops (fun h => by cases h.2) 0
  have hcom : archiveComment ops = [] := by rw [← hops]; rfl
  have hown : ∀ op ∈ ops, ∀ f ∈ userFields op, OwnField f := by
    rw [← hops]
    intro op ho f hf
    rcases List.mem_cons.1 ho with rfl | ho
    · cases hf
    · rw [List.mem_singleton.1 ho] at hf
      cases hf
  obtain ⟨out, ps, offs, cd, z, fin⟩ := finished (zw := Samples.fresh) .new rfl hc (J := False)
    (Or.inr fun r hr => by
      rw [hres] at hr
      simp only [List.mem_cons, List.not_mem_nil, or_false, or_self] at hr
      rw [hr]
      exact Or.inl rfl)
  have hprog := fin.program
  have hlaid := fin.laid
  have hwn := fin.own hown
  rw [hres, ← hops] at hprog
  generalize hls : ps.map Prod.fst = ls at hprog
  cases hprog with
  | other h _ => exact absurd (Or.inl rfl) h
  | @listed _ _ _ _ l₁ _ a₁ hprog =>
  cases hprog with
  | other h _ => exact absurd (Or.inl rfl) h
  | @listed _ _ _ _ l₂ _ a₂ hprog =>
  cases hprog
  obtain ⟨p₁, qs, rfl, hp₁, hqs⟩ := List.map_eq_cons_iff.1 hls
  obtain ⟨p₂, qs, rfl, hp₂, hqs⟩ := List.map_eq_cons_iff.1 hqs
  rw [List.map_eq_nil_iff] at hqs
  subst hqs
  cases hlaid with
  | @cons _ off₁ _ _ _ _ y₁ x₁ r₁ b₁ t₁ o₁ k₁ g₁ hlaid =>
  cases hlaid with
  | @cons _ off₂ _ _ _ _ y₂ x₂ r₂ b₂ t₂ o₂ k₂ g₂ hlaid =>
  cases hlaid with
  | nil b₃ t₃ =>
  have hst : p₁.1.stored = d := by
    rw [hp₁]
    cases a₁ with
    | whole _ _ _ _ stored _ hs =>
      rcases hs with ⟨_, rfl⟩ | ⟨h, _⟩
      · rfl
      · exact absurd rfl h
  have hst₂ : p₂.1 = ⟨Samples.vastEntry, false, Samples.vastEntry.crc32, 0xFFFFFFFF, [1]⟩ := by
    rw [hp₂]
    cases a₂ with
    | wholePre _ _ _ _ _ => rfl
  obtain ⟨m₁, m₂⟩ := g₁.length (rest := r₁) (hwn _ List.mem_cons_self) k₁
  obtain ⟨m₃, m₄⟩ := g₂.length (rest := r₂) (hwn _ (List.mem_cons_of_mem _ List.mem_cons_self)) k₂
  rw [hst] at m₁ m₂
  rw [hst₂] at m₃ m₄
  have e₁ := t₁ id
  have e₂ := t₂ id
  have e₃ := t₃ id
  have hbd := fin.bound
  rw [hcom] at hbd
  simp only [List.length_cons, List.length_nil] at hbd m₃ m₄
  obtain ⟨js, h1, h2, _⟩ := fin.onBytes (fun op ho f hf => (hown op ho f hf).1) (by omega)
  rw [hcom, fin.far (by omega)] at h1
  cases h2 with
  | @cons _ j₁ _ js q₁ h2 =>
  cases h2 with
  | @cons _ j₂ _ js q₂ h2 =>
  cases h2
  refine ⟨_, sink', _, _, j₁, j₂, off₂, hres _, hc, h1, by omega, q₂.1.1, ?_, ?_⟩
  · have := q₂.1.2
    simp only [hst₂] at this
    exact this
  · have := (q₂.2.2 (hwn _ (List.mem_cons_of_mem _ List.mem_cons_self))).2
    simp only [hst₂] at this
    refine this ⟨rfl, by omega, by decide, by decide, Or.inl rfl⟩

/-- There is such data. -/
example : ∃ d : Bytes, 0xFFFFFFFF < d.length ∧ d.length < 2 ^ 63 :=
  ⟨List.replicate (2 ^ 32) 0, by rw [List.length_replicate]; decide, by rw [List.length_replicate]; decide⟩

end AsyncZip
