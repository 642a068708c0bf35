import Verif.Props.Commenting
import Verif.Props.RoundTrip
import Verif.Props.Agree
/-!
# C110: what is read of archives that differ in their comments
-/

namespace AsyncZip
open Spec Rd

theorem reads_core {b : Build} {c c' : CdEntry} {e e' : StoredZipEntry} (h : Reads b c e) (h' : Reads b c' e')
    (hc : coreCd c = coreCd c') : e = e' := by
  obtain ⟨m, xb, fs, h1, _, _, _, h5, h6, rfl⟩ := h
  obtain ⟨m', xb', fs', k1, _, _, _, k5, k6, rfl⟩ := h'
  have hh : c.header = c'.header := by
    show (coreCd c).header = (coreCd c').header
    rw [hc]
  have hf : c.entry.filename = c'.entry.filename := by
    show (coreCd c).entry.filename = (coreCd c').entry.filename
    rw [hc]
  have hm : c.entry.comment = c'.entry.comment := by
    show (coreCd c).entry.comment = (coreCd c').entry.comment
    rw [hc]
  have hx : c.entry.extraFields = c'.entry.extraFields := by
    show (coreCd c).entry.extraFields = (coreCd c').entry.extraFields
    rw [hc]
  rw [hx, k1] at h1
  cases h1
  rw [hh, k5] at h5
  cases h5
  rw [hh, k6] at h6
  cases h6
  rw [hh, hf, hm]

theorem shown_reads {b : Build} {force : Bool} : ∀ {ps : List (Listing × CdEntry)} {offs : List Nat} {es : List StoredZipEntry},
    ps.length = offs.length →
    List.Forall₂ (fun (q : (Listing × CdEntry) × Nat) e => Shown b force q.1 q.2 e) (ps.zip offs) es →
    List.Forall₂ (Reads b) (ps.map Prod.snd) es
  | [], _, _, _, h => by cases h; exact .nil
  | _ :: _, [], _, hl, _ => by cases hl
  | _ :: _, _ :: _, _, hl, h => by
    cases h with
    | cons h1 h2 => exact .cons h1.reads (shown_reads (Nat.succ.inj hl) h2)

theorem reads_same {b : Build} : ∀ {cs cs' : List CdEntry} {es es' : List StoredZipEntry}, List.Forall₂ (Reads b) cs es →
    List.Forall₂ (Reads b) cs' es' → cs.map coreCd = cs'.map coreCd → es = es'
  | [], [], _, _, h, h', _ => by cases h; cases h'; rfl
  | [], _ :: _, _, _, _, _, hc => by cases hc
  | _ :: _, [], _, _, _, _, hc => by cases hc
  | _ :: _, _ :: _, _, _, h, h', hc => by
    rw [List.map_cons, List.map_cons] at hc
    obtain ⟨hc1, hc2⟩ := List.cons.inj hc
    cases h with
    | cons h1 h2 =>
      cases h' with
      | cons k1 k2 => rw [reads_core h1 k1 hc1, reads_same h2 k2 hc2]

/-- C110, for the reader. Two archives whose programs differ only in the comments they set, and that can be read at all (as in C41),
open with listings that are the same but for the comment. -/
theorem C110_opened_partial (C : Codec) (sink sink' sink'' : Sink) (zw : ZipWriter) (h : Created sink zw) (hs : sink.bytes = [])
    (ops ops' : List Op) (hu : uncommented ops = uncommented ops') (evs evs' : List Ev)
    (hc : (runArchive C zw ops evs).2.1 = .ok sink') (hc' : (runArchive C zw ops' evs').2.1 = .ok sink'')
    (hleg : Legible ops (runArchive C zw ops evs).1 (runArchive C zw ops evs).2.2.isZip64 sink'.bytes)
    (hleg' : Legible ops' (runArchive C zw ops' evs').1 (runArchive C zw ops' evs').2.2.isZip64 sink''.bytes)
    (hsmall : sink'.bytes.length ≤ 0xFFFFFFFF ∨
      ∀ ls, Program C ops (runArchive C zw ops evs).1 ls → ∀ l ∈ ls, l.us ≠ 0xFFFFFFFF ∧ l.cs ≠ 0xFFFFFFFF)
    (hsmall' : sink''.bytes.length ≤ 0xFFFFFFFF ∨
      ∀ ls, Program C ops' (runArchive C zw ops' evs').1 ls → ∀ l ∈ ls, l.us ≠ 0xFFFFFFFF ∧ l.cs ≠ 0xFFFFFFFF)
    (b : Build) (hb : (runArchive C zw ops evs).1.countP isListed ≤ b.maxVecEntries) :
    ∃ f : ZipFile, f.entries.length = (runArchive C zw ops evs).1.countP isListed ∧ f.comment = ⟨.utf8, archiveComment ops, none⟩ ∧
      (∀ s : RState, s.data = sink'.bytes → Interrupted (openFile b s).1 ∨ (openFile b s).1 = .ok f) ∧
      ∀ s : RState, s.data = sink''.bytes → Interrupted (openFile b s).1 ∨
        (openFile b s).1 = .ok { f with comment := ⟨.utf8, archiveComment ops', none⟩ } := by
  obtain ⟨_, c1⟩ := sim_uncommented C ops (Eq.refl (coreW true false zw))
  obtain ⟨_, c2⟩ := sim_uncommented C ops' (Eq.refl (coreW true false zw))
  rw [← hu] at c2
  have hcore := c1.trans c2.symm
  obtain ⟨out, ps, offs, cd, z, fin⟩ := finished h hs hc (J := True) (Or.inl trivial)
  obtain ⟨out', ps', offs', cd', z', fin'⟩ := finished h hs hc' (J := True) (Or.inl trivial)
  have hcount := Program.count fin.program
  rw [List.length_map] at hcount
  have hent := coreW_entries hcore
  rw [fin.entries, fin'.entries] at hent
  have hlen : ps.length = ps'.length := by
    have := congrArg List.length hent
    simpa only [List.length_map] using this
  obtain ⟨f, h1, h2, h3, h4⟩ := fin.shown (b := b) h hleg (fin.noClash hsmall) (by rw [hcount]; exact hb)
  obtain ⟨f', k1, k2, k3, k4⟩ := fin'.shown (b := b) h hleg' (fin'.noClash hsmall') (by rw [← hlen, hcount]; exact hb)
  have hes := reads_same (shown_reads fin.placed.length_eq h2) (shown_reads fin'.placed.length_eq k2) hent
  have hzip : (runOps C zw ops).2.isZip64 = (runOps C zw ops').2.isZip64 := coreW_zip hcore
  have hz : f.zip64 = f'.zip64 := by
    rw [h3, k3, ← fin.zip, ← fin'.zip, fin.flag, fin'.flag, hzip, ← fin.sink, ← fin'.sink, coreW_writer hcore]
  refine ⟨f, ?_, h4, h1, fun s hsd => ?_⟩
  · rw [← h2.length_eq, List.length_zip, ← fin.placed.length_eq, Nat.min_self, hcount]
  · have : ({ f with comment := ⟨.utf8, archiveComment ops', none⟩ } : ZipFile) = f' := by
      obtain ⟨es, z, c⟩ := f
      obtain ⟨es', z', c'⟩ := f'
      simp only at hes hz k4
      subst hes hz k4
      rfl
    rw [this]
    exact k1 s hsd

namespace Samples

/-- The sample archive with three entries, without its comment. -/
def untoldBytes : Bytes := tourBytes.take (tourBytes.length - 3) ++ [0, 0]

theorem untold_archive : (runArchive markCodec fresh (uncommented tour) eager).2.1 = .ok ⟨untoldBytes, 1, 0⟩ := by decide +kernel

theorem untold_legible : Legible (uncommented tour) (runArchive markCodec fresh (uncommented tour) eager).1
    (runArchive markCodec fresh (uncommented tour) eager).2.2.isZip64 untoldBytes where
  own := by
    simp only [tour, uncommented, List.forall_mem_cons]
    exact ⟨(fun _ h => by cases h), (fun _ h => by cases h), (fun _ h => by cases h), fun _ h => by cases h⟩
  comment := by decide +kernel
  last := lastEnd_of_decide (by decide +kernel)
  locator := fun _ => by decide +kernel
  count := by decide +kernel
  size := by decide +kernel

end Samples

/-- C110 on the sample archive with three entries: with its comment, and without. -/
example (b : Build) (hb : 3 ≤ b.maxVecEntries) := C110_opened_partial Samples.markCodec ⟨[], 0, 0⟩ ⟨Samples.tourBytes, 1, 0⟩
  ⟨Samples.untoldBytes, 1, 0⟩ Samples.fresh .new rfl Samples.tour (uncommented Samples.tour) rfl Samples.eager Samples.eager
  Samples.tour_archive.2 Samples.untold_archive Samples.tour_legible Samples.untold_legible (Or.inl (by decide +kernel))
  (Or.inl (by decide +kernel)) b (by rw [Samples.tour_archive.1]; exact hb)

end AsyncZip
