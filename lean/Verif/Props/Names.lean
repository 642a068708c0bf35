import Verif.Proofs.Unicode
import Verif.Props.RoundTrip
import Verif.Samples.Names
/-!
# C12: names and comments survive
-/

namespace AsyncZip
open Spec Rd

theorem Program.entries {C : Codec} {ops : List Op} {rs : List OpResult} {ls : List Listing} (h : Program C ops rs ls) :
    ∀ l ∈ ls, ∃ op ∈ ops, userEntry op = some l.entry := by
  induction h with
  | nil => exact fun _ h => (by cases h)
  | listed ha hs ih =>
    intro l hl
    rcases List.mem_cons.1 hl with rfl | hl
    · refine ⟨_, List.mem_cons_self, ?_⟩
      cases ha <;> rfl
    · obtain ⟨op, ho, h⟩ := ih l hl
      exact ⟨op, List.mem_cons_of_mem _ ho, h⟩
  | other _ _ ih =>
    intro l hl
    obtain ⟨op, ho, h⟩ := ih l hl
    exact ⟨op, List.mem_cons_of_mem _ ho, h⟩

/-- C12. In every archive that says what it means, names and comments are read back as they were written, in the sense of
`SameText`. Partial: the empty text with a non-empty alternative is lost, bytes that are ASCII come back as text, and
Info-ZIP unicode fields the caller put on the entry, if any, must not contradict it. -/
theorem C12_strings_partial (C : Codec) (sink sink' : Sink) (zw : ZipWriter) (h : Created sink zw) (hs : sink.bytes = [])
    (ops : List Op) (evs : List Ev) (hc : (runArchive C zw ops evs).2.1 = .ok sink')
    (hleg : Legible ops (runArchive C zw ops evs).1 (runArchive C zw ops evs).2.2.isZip64 sink'.bytes)
    (hsmall : sink'.bytes.length ≤ 0xFFFFFFFF ∨
      ∀ ls, Program C ops (runArchive C zw ops evs).1 ls → ∀ l ∈ ls, l.us ≠ 0xFFFFFFFF ∧ l.cs ≠ 0xFFFFFFFF)
    (hu : ∀ op ∈ ops, ∀ e, userEntry op = some e → Constructed e.filename ∧ Constructed e.comment ∧ UnicodeAgrees e) :
    ∃ ls, Program C ops (runArchive C zw ops evs).1 ls ∧ ∀ b : Build, ls.length ≤ b.maxVecEntries →
      ∃ f : ZipFile, (∀ s : RState, s.data = sink'.bytes → Interrupted (openFile b s).1 ∨ (openFile b s).1 = .ok f) ∧
        List.Forall₂ (fun l e => SameText l.entry.filename e.entry.filename ∧ SameText l.entry.comment e.entry.comment)
          ls f.entries := by
  obtain ⟨out, ps, offs, cd, z, fin⟩ := finished h hs hc (J := True) (Or.inl trivial)
  refine ⟨ps.map Prod.fst, fin.program, fun b hv => ?_⟩
  · rw [List.length_map] at hv
    obtain ⟨f, h1, h2, _, _⟩ := fin.shown (b := b) h hleg (fin.noClash hsmall) hv
    refine ⟨f, h1, ?_⟩
    have h3 := (forall₂_mem h2).imp (S := fun (q : (Listing × CdEntry) × Nat) e =>
      SameText q.1.1.entry.filename e.entry.filename ∧ SameText q.1.1.entry.comment e.entry.comment) (by
      intro q e ⟨hq, hsh⟩
      obtain ⟨op, ho, he⟩ := Program.entries fin.program q.1.1 (List.mem_map_of_mem (List.of_mem_zip hq).1)
      obtain ⟨h1, h2, h3⟩ := hu op ho _ he
      rw [hsh.name, hsh.comment]
      exact ⟨name_kept h1 h3, comment_kept h2 h3⟩)
    have h4 : (ps.zip offs).map (fun q => q.1.1) = ps.map Prod.fst := by
      have : (ps.zip offs).map (fun q => q.1.1) = ((ps.zip offs).map Prod.fst).map Prod.fst := by rw [List.map_map]; rfl
      rw [this, List.map_fst_zip (Nat.le_of_eq fin.placed.length_eq)]
    rw [← h4, List.forall₂_map_left_iff]
    exact h3

/-! ## Single entries -/

theorem program_single {C : Codec} {op : Op} {r : OpResult} {ls : List Listing} (h : Program C [op] [r] ls)
    (hr : ¬ NotListed r) : ∃ l, ls = [l] ∧ Asked C op r l := by
  cases h with
  | listed ha hs => cases hs; exact ⟨_, rfl, ha⟩
  | other hn _ => exact absurd hn hr

/-- What the archive with a single whole entry shows. -/
theorem single_shown {C : Codec} {e : ZipEntry} {d bytes : Bytes} {pre : Bool} {evs evs' : List Ev}
    (hrun : (runArchive C Samples.fresh [.whole e d pre evs] evs').1 = [.whole (.ok ())])
    (hc : (runArchive C Samples.fresh [.whole e d pre evs] evs').2.1 = .ok ⟨bytes, 0, 0⟩)
    (hleg : Legible [.whole e d pre evs] [.whole (.ok ())] (runArchive C Samples.fresh [.whole e d pre evs] evs').2.2.isZip64 bytes)
    (hsmall : bytes.length ≤ 0xFFFFFFFF) (b : Build) (hb : 1 ≤ b.maxVecEntries) :
    ∃ f s, (∀ s : RState, s.data = bytes → Interrupted (openFile b s).1 ∨ (openFile b s).1 = .ok f) ∧
      f.entries = [s] ∧ s.entry.filename = nameRead e ∧ s.entry.comment = commentRead e := by
  obtain ⟨out, ps, offs, cd, z, fin⟩ := finished (zw := Samples.fresh) .new rfl hc (J := True) (Or.inl trivial)
  have hp := fin.program
  rw [hrun] at hp
  obtain ⟨l, hl, ha⟩ := program_single hp (fun h => h (Or.inl rfl))
  have hlen : ps.length = 1 := by simpa using congrArg List.length hl
  have hcl := fin.noClash (Or.inl hsmall)
  rw [← hrun] at hleg
  obtain ⟨f, h1, h2, _, _⟩ := fin.shown (b := b) .new hleg hcl (by rw [hlen]; exact hb)
  obtain ⟨p, rfl⟩ := List.length_eq_one_iff.1 hlen
  obtain ⟨o, rfl⟩ := List.length_eq_one_iff.1 fin.placed.length_eq.symm
  generalize hes : f.entries = es at h2
  cases h2 with
  | cons hsh hn =>
    cases hn
    have hpl : p.1 = l := by simpa using hl
    have hpe : p.1.entry = e := by
      rw [hpl]
      cases ha <;> rfl
    exact ⟨f, _, h1, hes, by rw [hsh.name, hpe], by rw [hsh.comment, hpe]⟩

/-- C12 as written does not hold: the empty text with an alternative comes back as the text `A`. -/
theorem C12_empty_text_fails (b : Build) (hb : 1 ≤ b.maxVecEntries) : ∃ f s,
    (runArchive Samples.markCodec Samples.fresh [.whole Samples.lostEntry [] false Samples.eager] Samples.eager).2.1 =
      .ok ⟨Samples.lostBytes, 0, 0⟩ ∧
    (∀ s : RState, s.data = Samples.lostBytes → Interrupted (openFile b s).1 ∨ (openFile b s).1 = .ok f) ∧
    f.entries = [s] ∧ Samples.lostEntry.filename.asStr = .ok [] ∧ s.entry.filename.asStr = .ok [65] := by
  have hc : (runArchive Samples.markCodec Samples.fresh [.whole Samples.lostEntry [] false Samples.eager] Samples.eager).2.1 =
      .ok ⟨Samples.lostBytes, 0, 0⟩ := by decide +kernel
  obtain ⟨f, s, h1, h2, h3, _⟩ := single_shown (by decide +kernel) hc (legible_of_decide (by
    intro op ho f hf; rw [List.mem_singleton] at ho; subst ho; cases hf) (by decide +kernel)) (by decide +kernel) b hb
  refine ⟨f, s, hc, h1, h2, rfl, ?_⟩
  rw [h3]
  decide +kernel

/-- C12 as written does not hold if the caller's entry has an Info-ZIP unicode path field of an unknown version: the writer
does not add its own and the text is lost. -/
theorem C12_blocked_fails (b : Build) (hb : 1 ≤ b.maxVecEntries) : ∃ f s,
    (runArchive Samples.markCodec Samples.fresh [.whole Samples.blockedEntry [] false Samples.eager] Samples.eager).2.1 =
      .ok ⟨Samples.blockedBytes, 0, 0⟩ ∧
    (∀ s : RState, s.data = Samples.blockedBytes → Interrupted (openFile b s).1 ∨ (openFile b s).1 = .ok f) ∧
    f.entries = [s] ∧ Samples.blockedEntry.filename.asStr = .ok [195, 169] ∧
    s.entry.filename = ⟨.raw, [233], none⟩ := by
  have hc : (runArchive Samples.markCodec Samples.fresh [.whole Samples.blockedEntry [] false Samples.eager] Samples.eager).2.1 =
      .ok ⟨Samples.blockedBytes, 0, 0⟩ := by decide +kernel
  obtain ⟨f, s, h1, h2, h3, _⟩ := single_shown (by decide +kernel) hc (legible_of_decide (by
    intro op ho f hf
    rw [List.mem_singleton] at ho
    subst ho
    have hf : f ∈ [ExtraField.unicodePath (.unknown 2 [0])] := hf
    rw [List.mem_singleton] at hf
    subst hf
    exact ⟨fun z h => (by cases h), (by decide), (by decide)⟩) (by decide +kernel)) (by decide +kernel) b hb
  refine ⟨f, s, hc, h1, h2, rfl, ?_⟩
  rw [h3]
  decide +kernel

/-- C12 on an entry with an alternative name and a comment: both texts and the alternative come back. -/
example (b : Build) (hb : 1 ≤ b.maxVecEntries) : ∃ f s,
    (∀ s : RState, s.data = Samples.nativeBytes → Interrupted (openFile b s).1 ∨ (openFile b s).1 = .ok f) ∧
    f.entries = [s] ∧ s.entry.filename.asStr = .ok [195, 169] ∧ s.entry.filename.alternative = some [233] ∧
    s.entry.comment.asStr = .ok [195, 169] := by
  have hr : (runArchive Samples.markCodec Samples.fresh [.whole Samples.nativeEntry [] false Samples.eager] Samples.eager).1 =
    [.whole (.ok ())] := by decide +kernel
  have hc : (runArchive Samples.markCodec Samples.fresh [.whole Samples.nativeEntry [] false Samples.eager] Samples.eager).2.1 =
      .ok ⟨Samples.nativeBytes, 0, 0⟩ := by decide +kernel
  obtain ⟨ls, h1, h2⟩ := C12_strings_partial Samples.markCodec ⟨[], 0, 0⟩ ⟨Samples.nativeBytes, 0, 0⟩ Samples.fresh .new rfl
    _ _ hc (by
      rw [hr]
      exact legible_of_decide (by intro op ho f hf; rw [List.mem_singleton] at ho; subst ho; cases hf) (by decide +kernel))
    (Or.inl (by decide +kernel)) (by
      intro op ho e he
      rw [List.mem_singleton] at ho
      subst ho
      cases he
      exact ⟨.alternative _ _, .ofString _, ⟨fun i hi => (by cases hi), fun i hi => (by cases hi)⟩⟩)
  rw [hr] at h1
  obtain ⟨l, rfl, ha⟩ := program_single h1 (fun h => h (Or.inl rfl))
  have hl : l.entry = Samples.nativeEntry := by cases ha; rfl
  obtain ⟨f, g1, g2⟩ := h2 b hb
  generalize hes : f.entries = es at g2
  cases g2 with
  | cons hsh hn =>
    cases hn
    rw [hl] at hsh
    exact ⟨f, _, g1, hes, hsh.1.text _ rfl (fun h => by cases h), hsh.1.alternative _ _ rfl rfl (by decide),
      hsh.2.text _ rfl fun h => by cases h⟩

end AsyncZip
