import Verif.Spec.Inner
import Verif.Proofs.Behind
import Verif.Proofs.WriteClose
/-!
# Calls do not notice what happens to the sink in between
-/

namespace AsyncZip
open Spec Wr

/-- The writer, with an untouched sink instead of its own. -/
def ZipWriter.bare (zw : ZipWriter) : ZipWriter := { zw with writer := { zw.writer with sink := ⟨[], 0, 0⟩ } }

theorem behind_bare (zw : ZipWriter) : ZipWriter.behind zw.writer.sink zw.bare = zw := by
  simp [ZipWriter.behind, ZipWriter.bare, Sink.behind]

theorem bare_behind (pre : Sink) (zw : ZipWriter) : (ZipWriter.behind pre zw).bare = zw.bare := rfl

theorem bare_innerMut (zw : ZipWriter) (k : Sink) : (zw.innerMut k).bare = zw.bare := rfl

/-- A call does the same to two writers that differ in their sinks only, and appends the same to both. -/
theorem runOp_bare (C : Codec) (zw zt : ZipWriter) (h : zw.bare = zt.bare) (op : Op) :
    (runOp C zt op).1 = (runOp C zw op).1 ∧ (runOp C zw op).2.bare = (runOp C zt op).2.bare ∧
    ∃ d, (runOp C zw op).2.writer.sink.bytes = zw.writer.sink.bytes ++ d ∧
      (runOp C zt op).2.writer.sink.bytes = zt.writer.sink.bytes ++ d := by
  have h1 := Behind.runOp C zw.writer.sink zw.bare op
  have h2 := Behind.runOp C zt.writer.sink zt.bare op
  rw [behind_bare] at h1 h2
  rw [← h] at h2
  rw [h1, h2]
  exact ⟨rfl, rfl, _, rfl, rfl⟩

/-- So does closing. -/
theorem close_bare (zw zt : ZipWriter) (h : zw.bare = zt.bare) (evs : List Ev) :
    ∃ d, (closeArchive ⟨zw, evs⟩).2.zw.writer.sink.bytes = zw.writer.sink.bytes ++ d ∧
      (closeArchive ⟨zt, evs⟩).2.zw.writer.sink.bytes = zt.writer.sink.bytes ++ d ∧
      (∀ x, (closeArchive ⟨zw, evs⟩).1 = .error x ↔ (closeArchive ⟨zt, evs⟩).1 = .error x) ∧
      (∀ k, (closeArchive ⟨zw, evs⟩).1 = .ok k → k.bytes = zw.writer.sink.bytes ++ d) ∧
      (∀ k, (closeArchive ⟨zt, evs⟩).1 = .ok k → k.bytes = zt.writer.sink.bytes ++ d) := by
  have h1 := Behind.closeArchive zw.writer.sink ⟨zw.bare, evs⟩
  have h2 := Behind.closeArchive zt.writer.sink ⟨zt.bare, evs⟩
  unfold Behind.st at h1 h2
  simp only at h1 h2
  rw [behind_bare] at h1 h2
  rw [← h] at h2
  have h3 : ∀ k, (closeArchive ⟨zw.bare, evs⟩).1 = .ok k →
      k = (closeArchive ⟨zw.bare, evs⟩).2.zw.writer.sink := by
    intro k hk
    rcases hr : closeArchive ⟨zw.bare, evs⟩ with ⟨r, s'⟩
    rw [hr] at hk
    simp only at hk
    subst hk
    obtain ⟨_, _, _, _, _, _, h3, _⟩ := closeArchive_ok hr
    exact h3.symm
  refine ⟨(closeArchive ⟨zw.bare, evs⟩).2.zw.writer.sink.bytes, ?_, ?_, ?_, ?_, ?_⟩
  · rw [h1]; rfl
  · rw [h2]; rfl
  · intro x
    rw [h1, h2]
    cases (closeArchive ⟨zw.bare, evs⟩).1 <;> simp [Except.map]
  · intro k hk
    rw [h1] at hk
    cases hr : (closeArchive ⟨zw.bare, evs⟩).1 with
    | error e => rw [hr] at hk; cases hk
    | ok k0 =>
      rw [hr] at hk
      cases hk
      rw [← h3 k0 hr]; rfl
  · intro k hk
    rw [h2] at hk
    cases hr : (closeArchive ⟨zw.bare, evs⟩).1 with
    | error e => rw [hr] at hk; cases hk
    | ok k0 =>
      rw [hr] at hk
      cases hk
      rw [← h3 k0 hr]; rfl

/-- Nothing is written past the writer at an earlier place than where the program begins. -/
theorem asides_from (C : Codec) (steps : List MixedStep) : ∀ zw : ZipWriter, ∀ x ∈ asides C zw steps,
    zw.writer.sink.bytes.length ≤ x.1 := by
  induction steps with
  | nil => intro zw x hx; cases hx
  | cons st steps ih =>
    intro zw x hx
    cases st with
    | call op =>
      have := ih _ x hx
      obtain ⟨_, _, d, hd, _⟩ := runOp_bare C zw zw rfl op
      rw [hd, List.length_append] at this
      omega
    | sink k =>
      rcases List.mem_cons.1 hx with rfl | hx
      · exact Nat.le_refl _
      · exact ih zw x hx

theorem spread_advance (file d : Bytes) (a b : Nat) (l : List (Nat × Bytes)) (hb : b = a + d.length)
    (hd : file.drop a = d ++ file.drop b) (hl : ∀ x ∈ l, b ≤ x.1) : spread file a l = d ++ spread file b l := by
  cases l with
  | nil => exact hd
  | cons x l =>
    obtain ⟨p, y⟩ := x
    have : b ≤ p := hl (p, y) List.mem_cons_self
    simp only [spread]
    rw [hd, List.take_append, List.take_of_length_le (by omega : d.length ≤ p - a),
      show p - a - d.length = p - b by omega]
    simp only [List.append_assoc]

/-- Running the calls alone, and with other things in between. -/
theorem runSteps_spread (C : Codec) (file : Bytes) (steps : List MixedStep) : ∀ zw zt : ZipWriter, zw.bare = zt.bare →
    (runOps C zw (calls steps)).2.writer.sink.bytes <+: file →
    (runSteps C zt steps).1 = (runOps C zw (calls steps)).1 ∧
    (runOps C zw (calls steps)).2.bare = (runSteps C zt steps).2.bare ∧
    zw.writer.sink.bytes <+: (runOps C zw (calls steps)).2.writer.sink.bytes ∧
    (runSteps C zt steps).2.writer.sink.bytes ++ file.drop (runOps C zw (calls steps)).2.writer.sink.bytes.length =
      zt.writer.sink.bytes ++ spread file zw.writer.sink.bytes.length (asides C zw steps) := by
  induction steps with
  | nil => intro zw zt h _; exact ⟨rfl, h, List.prefix_refl _, rfl⟩
  | cons st steps ih =>
    intro zw zt h hf
    cases st with
    | call op =>
      obtain ⟨h1, h2, d, h3, h4⟩ := runOp_bare C zw zt h op
      obtain ⟨i1, i2, i3, i4⟩ := ih (runOp C zw op).2 (runOp C zt op).2 h2 hf
      refine ⟨?_, i2, (h3 ▸ List.prefix_append _ d).trans i3, ?_⟩
      · show (runOp C zt op).1 :: (runSteps C (runOp C zt op).2 steps).1 =
          (runOp C zw op).1 :: (runOps C (runOp C zw op).2 (calls steps)).1
        rw [i1, h1]
      · refine i4.trans ?_
        rw [h4, List.append_assoc]
        congr 1
        refine (spread_advance file d _ _ _ (by rw [h3, List.length_append]) ?_ (asides_from C steps _)).symm
        obtain ⟨t, ht⟩ := i3.trans hf
        rw [← ht, List.drop_left, h3, List.append_assoc, List.drop_left]
    | sink k =>
      obtain ⟨i1, i2, i3, i4⟩ := ih zw (zt.innerMut k) (h.trans (bare_innerMut zt k).symm) hf
      refine ⟨i1, i2, i3, i4.trans ?_⟩
      show (_ ++ _) ++ _ = _ ++ ((file.drop _).take (_ - _) ++ _ ++ _)
      rw [Nat.sub_self, List.take_zero, List.nil_append, List.append_assoc]

end AsyncZip
