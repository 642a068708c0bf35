import Verif.Props.Forcing
import Verif.Props.CommentRead
/-!
# C109: what is read of an archive for which ZIP64 was forced
-/

namespace AsyncZip
open Spec Rd

/-- C109, for the reader. The archive for which ZIP64 was forced and the one for which it was not, if they can be read at all (as in
C41), open with listings that are the same but for saying whether the archive is ZIP64. -/
theorem C109_opened_partial (C : Codec) (sink sink' sink'' : Sink) (zw : ZipWriter) (h : Created sink zw) (hs : sink.bytes = [])
    (ops : List Op) (evs evs' : List Ev) (hc : (runArchive C zw ops evs).2.1 = .ok sink')
    (hc' : (runArchive C zw.withForceZip64 ops evs').2.1 = .ok sink'')
    (hleg : Legible ops (runArchive C zw ops evs).1 (runArchive C zw ops evs).2.2.isZip64 sink'.bytes)
    (hleg' : Legible ops (runArchive C zw.withForceZip64 ops evs').1 (runArchive C zw.withForceZip64 ops evs').2.2.isZip64 sink''.bytes)
    (hsmall : sink''.bytes.length ≤ 0xFFFFFFFF ∨
      ∀ ls, Program C ops (runArchive C zw ops evs).1 ls → ∀ l ∈ ls, l.us ≠ 0xFFFFFFFF ∧ l.cs ≠ 0xFFFFFFFF)
    (b : Build) (hb : (runArchive C zw ops evs).1.countP isListed ≤ b.maxVecEntries) :
    ∃ f : ZipFile, f.entries.length = (runArchive C zw ops evs).1.countP isListed ∧
      (∀ s : RState, s.data = sink'.bytes → Interrupted (openFile b s).1 ∨ (openFile b s).1 = .ok f) ∧
      ∀ s : RState, s.data = sink''.bytes → Interrupted (openFile b s).1 ∨ (openFile b s).1 = .ok { f with zip64 := true } := by
  obtain ⟨hrep, hcore⟩ := sim_runOps (z := false) (k := true) (C := C) (List.forall₂_same.2 fun op _ => Alike.refl op)
    (zw := zw) (zw' := zw.withForceZip64) rfl
  have hreports : (runArchive C zw ops evs).1 = (runArchive C zw.withForceZip64 ops evs').1 := hrep
  obtain ⟨out, ps, offs, cd, z, fin⟩ := finished h hs hc (J := True) (Or.inl trivial)
  obtain ⟨out', ps', offs', cd', z', fin'⟩ := finished h.zip64 hs hc' (J := True) (Or.inl trivial)
  have hcount := Program.count fin.program
  rw [List.length_map] at hcount
  have hent := coreW_entries hcore
  rw [fin.entries, fin'.entries] at hent
  have hlen : ps.length = ps'.length := by
    have := congrArg List.length hent
    simpa only [List.length_map] using this
  have hout : out = out' := by rw [← fin.sink, ← fin'.sink, coreW_writer hcore]
  have hcd := directory_core fin.directory hent fin'.directory
  subst hout hcd
  have hz' : z' = true := by
    rw [fin'.flag, (runOps_ext C ops zw.withForceZip64).zip64 rfl]
    rfl
  have hle : sink'.bytes.length ≤ sink''.bytes.length := by
    rw [fin.bytes, fin'.bytes, archive_length, archive_length, hz']
    unfold endAt
    split <;> simp only [if_true] <;> omega
  obtain ⟨f, h1, h2, h3, h4⟩ := fin.shown (b := b) h hleg (fin.noClash (hsmall.imp (Nat.le_trans hle) id))
    (by rw [hcount]; exact hb)
  obtain ⟨f', k1, k2, k3, k4⟩ := fin'.shown (b := b) h.zip64 hleg' (fin'.noClash (hsmall.imp id fun hp => hreports ▸ hp))
    (by rw [← hlen, hcount]; exact hb)
  have hes := reads_same (shown_reads fin.placed.length_eq h2) (shown_reads fin'.placed.length_eq k2) hent
  refine ⟨f, ?_, h1, fun s hsd => ?_⟩
  · rw [← h2.length_eq, List.length_zip, ← fin.placed.length_eq, Nat.min_self, hcount]
  · have : ({ f with zip64 := true } : ZipFile) = f' := by
      rw [← fin'.zip, hz'] at k3
      obtain ⟨es, zf, c⟩ := f
      obtain ⟨es', zf', c'⟩ := f'
      simp only at hes k3 k4 h4
      subst hes k3 k4 h4
      rfl
    rw [this]
    exact k1 s hsd

namespace Samples

/-- A program with one entry. -/
def forcibleCalls : List Op := [.whole storedEntry [104, 105] false eager]

/-- What comes of it. -/
def unforcedBytes : Bytes :=
  [80, 75, 3, 4, 10, 0, 0, 8, 0, 0, 131, 24, 34, 80, 172, 42, 147, 216, 2, 0, 0, 0, 2, 0, 0, 0, 3, 0, 0, 0, 97, 46,
   116, 104, 105, 80, 75, 1, 2, 63, 3, 10, 0, 0, 8, 0, 0, 131, 24, 34, 80, 172, 42, 147, 216, 2, 0, 0, 0, 2, 0, 0, 0,
   3, 0, 0, 0, 0, 0, 0, 0, 0, 0, 0, 0, 0, 0, 0, 0, 0, 0, 97, 46, 116, 80, 75, 5, 6, 0, 0, 0, 0, 1, 0, 1, 0, 49, 0, 0,
   0, 35, 0, 0, 0, 0, 0]

/-- What comes of it with ZIP64 forced. -/
def forcedBytes : Bytes :=
  [80, 75, 3, 4, 10, 0, 0, 8, 0, 0, 131, 24, 34, 80, 172, 42, 147, 216, 2, 0, 0, 0, 2, 0, 0, 0, 3, 0, 0, 0, 97, 46,
   116, 104, 105, 80, 75, 1, 2, 63, 3, 10, 0, 0, 8, 0, 0, 131, 24, 34, 80, 172, 42, 147, 216, 2, 0, 0, 0, 2, 0, 0, 0,
   3, 0, 0, 0, 0, 0, 0, 0, 0, 0, 0, 0, 0, 0, 0, 0, 0, 0, 97, 46, 116, 80, 75, 6, 6, 44, 0, 0, 0, 0, 0, 0, 0, 63, 3,
   46, 0, 0, 0, 0, 0, 0, 0, 0, 0, 1, 0, 0, 0, 0, 0, 0, 0, 1, 0, 0, 0, 0, 0, 0, 0, 49, 0, 0, 0, 0, 0, 0, 0, 35, 0, 0,
   0, 0, 0, 0, 0, 80, 75, 6, 7, 0, 0, 0, 0, 84, 0, 0, 0, 0, 0, 0, 0, 1, 0, 0, 0, 80, 75, 5, 6, 0, 0, 0, 0, 1, 0, 1,
   0, 49, 0, 0, 0, 35, 0, 0, 0, 0, 0]

theorem unforced_archive : (runArchive markCodec fresh forcibleCalls eager).2.1 = .ok ⟨unforcedBytes, 0, 0⟩ := by decide +kernel
theorem forced_archive : (runArchive markCodec fresh.withForceZip64 forcibleCalls eager).2.1 = .ok ⟨forcedBytes, 0, 0⟩ := by decide +kernel

theorem unforced_legible : Legible forcibleCalls (runArchive markCodec fresh forcibleCalls eager).1
    (runArchive markCodec fresh forcibleCalls eager).2.2.isZip64 unforcedBytes where
  own := by
    simp only [forcibleCalls, List.forall_mem_cons]
    exact ⟨(fun _ h => by cases h), fun _ h => by cases h⟩
  comment := by decide +kernel
  last := lastEnd_of_decide (by decide +kernel)
  locator := by unfold HasLocator OccursAt; decide +kernel
  count := by decide +kernel
  size := by decide +kernel

theorem forced_legible : Legible forcibleCalls (runArchive markCodec fresh.withForceZip64 forcibleCalls eager).1
    (runArchive markCodec fresh.withForceZip64 forcibleCalls eager).2.2.isZip64 forcedBytes where
  own := by
    simp only [forcibleCalls, List.forall_mem_cons]
    exact ⟨(fun _ h => by cases h), fun _ h => by cases h⟩
  comment := by decide +kernel
  last := lastEnd_of_decide (by decide +kernel)
  locator := fun _ => by decide +kernel
  count := by decide +kernel
  size := by decide +kernel

end Samples

/-- C109 on an archive with one entry, which is not ZIP64 unless that is forced. -/
example (b : Build) (hb : 1 ≤ b.maxVecEntries) := C109_opened_partial Samples.markCodec ⟨[], 0, 0⟩ ⟨Samples.unforcedBytes, 0, 0⟩
  ⟨Samples.forcedBytes, 0, 0⟩ Samples.fresh .new rfl Samples.forcibleCalls Samples.eager Samples.eager Samples.unforced_archive
  Samples.forced_archive Samples.unforced_legible Samples.forced_legible (Or.inl (by decide +kernel)) b
  (Nat.le_trans (by decide +kernel) hb)

example : (runArchive Samples.markCodec Samples.fresh Samples.forcibleCalls Samples.eager).2.2.isZip64 = false := by decide +kernel

end AsyncZip
