import Verif.Spec.Ordinary
import Verif.Proofs.RoundTrip
import Verif.Proofs.LastEnd
/-!
# Nothing before the end record of an ordinary archive looks like a ZIP64 locator
-/

namespace AsyncZip
open Spec

theorem quiet_tail {u2 u3 n0 n1 x0 x1 c0 c1 i0 i1 e0 e1 e2 e3 o0 o1 o2 o3 : UInt8} {t : Bytes}
    (hl : n0.toNat + 256 * n1.toNat + (x0.toNat + 256 * x1.toNat) + (c0.toNat + 256 * c1.toNat) = t.length)
    (h0 : e0 ≠ 6 ∧ e0 ≠ 75 ∧ e0 ≠ 80) (h1 : e1 ≠ 80) (h2 : e2 ≠ 80) (h3 : e3 ≠ 80)
    (ho : o3.toNat < 5) (ht : ∀ i, ¬ OccursAt t sigLocator i) :
    ¬ OccursAt ([u2, u3, n0, n1, x0, x1, c0, c1, 0, 0, i0, i1, e0, e1, e2, e3, o0, o1, o2, o3] ++ t) sigLocator t.length := by
  by_cases hlt : 20 ≤ t.length
  · intro h
    refine ht (t.length - 20) ?_
    unfold OccursAt at h ⊢
    obtain ⟨k, hk⟩ : ∃ k, t.length = k + 20 := ⟨t.length - 20, by omega⟩
    rw [hk] at h ⊢
    exact h
  · have small : ∀ {x : UInt8}, x.toNat < 20 → x ≠ 80 ∧ x ≠ 75 := fun h =>
      ⟨fun e => by rw [e] at h; exact absurd h (by decide), fun e => by rw [e] at h; exact absurd h (by decide)⟩
    have zero : ∀ {x : UInt8}, x.toNat < 1 → x = 0 := fun h => UInt8.toNat_inj.1 (by
      rw [show (0 : UInt8).toNat = 0 from rfl]; omega)
    obtain rfl : n1 = 0 := zero (by omega)
    obtain rfl : x1 = 0 := zero (by omega)
    obtain rfl : c1 = 0 := zero (by omega)
    obtain ⟨a, a'⟩ := small (x := n0) (by omega)
    obtain ⟨b, b'⟩ := small (x := x0) (by omega)
    obtain ⟨c, c'⟩ := small (x := c0) (by omega)
    have o : o3 ≠ 80 ∧ o3 ≠ 75 ∧ o3 ≠ 6 ∧ o3 ≠ 7 := by
      refine ⟨?_, ?_, ?_, ?_⟩ <;> (intro e; rw [e] at ho; exact absurd ho (by decide))
    clear hl
    have hk : t.length < 20 := by omega
    generalize t.length = k at hk
    match k, hk with
    | 0, _ | 1, _ | 2, _ | 3, _ | 4, _ | 5, _ | 6, _ | 7, _ | 8, _ | 9, _ | 10, _ | 11, _ | 12, _ | 13, _ | 14, _ | 15, _ | 16, _ | 17, _
    | 18, _ | 19, _ => simp_all [OccursAt, sigLocator]
    | k + 20, h => omega

theorem Directory.last {cs : List CdEntry} {cd : Bytes} (h : Directory cs cd) (hne : cs ≠ []) :
    ∃ c ∈ cs, ∃ pre extra, extraAsBytes c.entry.extraFields = .ok extra ∧
      cd = pre ++ recordBytes c.header c.entry.filename.basic extra c.entry.comment.basic := by
  induction h with
  | nil => exact absurd rfl hne
  | @cons c cs extra bs hx hd ih =>
    cases cs with
    | nil =>
      cases hd
      exact ⟨c, List.mem_cons_self, [], extra, hx, by rw [List.append_nil, List.nil_append]⟩
    | cons c' cs' =>
      obtain ⟨d, hd, pre, x, h1, h2⟩ := ih (by simp)
      exact ⟨d, List.mem_cons_of_mem _ hd, _, x, h1, by rw [h2, ← List.append_assoc]⟩

theorem le16_two (n : UInt16) : ∃ a b, le16 n = [a, b] ∧ a.toNat + 256 * b.toNat = n.toNat := by
  have hn := leNat_leBytes 2 n.toNat
  rw [Nat.mod_eq_of_lt n.toNat_lt] at hn
  have hl : (le16 n).length = 2 := le16_length n
  rw [← le16] at hn
  generalize le16 n = b at hn hl
  match b, hl with
  | [x, y], _ => exact ⟨x, y, rfl, by simpa only [leNat, Nat.mul_zero, Nat.add_zero] using hn⟩

theorem le32_four (n : UInt32) : ∃ a b c d, le32 n = [a, b, c, d] ∧
    a.toNat + 256 * (b.toNat + 256 * (c.toNat + 256 * d.toNat)) = n.toNat := by
  have hn := leNat_leBytes 4 n.toNat
  rw [Nat.mod_eq_of_lt n.toNat_lt] at hn
  have hl : (le32 n).length = 4 := le32_length n
  rw [← le32] at hn
  generalize le32 n = b at hn hl
  match b, hl with
  | [x, y, z, w], _ => exact ⟨x, y, z, w, rfl, by simpa only [leNat, Nat.mul_zero, Nat.add_zero] using hn⟩

theorem quiet_record {h : CentralDirectoryRecord} {name comment : Bytes} (hn : h.fileNameLength.toNat = name.length)
    (hx : h.extraFieldLength.toNat = 0) (hc : h.fileCommentLength.toNat = comment.length) (hd : h.diskStart = 0)
    (he : ∀ i < 4, h.exterAttr.toNat / 256 ^ i % 256 ∉ [6, 75, 80]) (ho : h.lhOffset.toNat < 0x5000000)
    (hq : ∀ i, ¬ OccursAt (name ++ comment) sigLocator i) (pre : Bytes) :
    ∀ j, j + 20 = (pre ++ recordBytes h name [] comment).length →
      ¬ OccursAt (pre ++ recordBytes h name [] comment) sigLocator j := by
  obtain ⟨n0, n1, e1, hn'⟩ := le16_two h.fileNameLength
  obtain ⟨x0, x1, e2, hx'⟩ := le16_two h.extraFieldLength
  obtain ⟨c0, c1, e3, hc'⟩ := le16_two h.fileCommentLength
  obtain ⟨i0, i1, e4, _⟩ := le16_two h.interAttr
  obtain ⟨a0, a1, a2, a3, e5, ha⟩ := le32_four h.exterAttr
  obtain ⟨o0, o1, o2, o3, e6, ho'⟩ := le32_four h.lhOffset
  obtain ⟨u0, u1, u2, u3, e7, _⟩ := le32_four h.uncompressedSize
  have hrec : ∃ a, pre ++ recordBytes h name [] comment =
      a ++ ([u2, u3, n0, n1, x0, x1, c0, c1, 0, 0, i0, i1, a0, a1, a2, a3, o0, o1, o2, o3] ++ (name ++ comment)) := by
    refine ⟨pre ++ (le32 CDH_SIGNATURE ++ (le16 h.vMadeBy ++ le16 h.vNeeded ++ h.flags.asSlice ++ le16 h.compression ++
      le16 h.modTime ++ le16 h.modDate ++ le32 h.crc ++ le32 h.compressedSize ++ [u0, u1])), ?_⟩
    unfold recordBytes CentralDirectoryRecord.asSlice
    rw [e1, e2, e3, e4, e5, e6, e7, hd, show le16 0 = [0, 0] by decide]
    simp only [List.append_assoc, List.cons_append, List.nil_append]
  obtain ⟨a, hrec⟩ := hrec
  rw [hrec]
  intro j hj hocc
  simp only [List.length_append, List.length_cons, List.length_nil] at hj
  have k0 := he 0 (by decide)
  have k1 := he 1 (by decide)
  have k2 := he 2 (by decide)
  have k3 := he 3 (by decide)
  rw [← ha] at k0 k1 k2 k3
  have := a0.toNat_lt; have := a1.toNat_lt; have := a2.toNat_lt; have := a3.toNat_lt
  have r0 : (a0.toNat + 256 * (a1.toNat + 256 * (a2.toNat + 256 * a3.toNat))) / 256 ^ 0 % 256 = a0.toNat := by omega
  have r1 : (a0.toNat + 256 * (a1.toNat + 256 * (a2.toNat + 256 * a3.toNat))) / 256 ^ 1 % 256 = a1.toNat := by omega
  have r2 : (a0.toNat + 256 * (a1.toNat + 256 * (a2.toNat + 256 * a3.toNat))) / 256 ^ 2 % 256 = a2.toNat := by omega
  have r3 : (a0.toNat + 256 * (a1.toNat + 256 * (a2.toNat + 256 * a3.toNat))) / 256 ^ 3 % 256 = a3.toNat := by omega
  rw [r0] at k0; rw [r1] at k1; rw [r2] at k2; rw [r3] at k3
  refine quiet_tail (t := name ++ comment) (n0 := n0) (x0 := x0) (c0 := c0) (n1 := n1) (x1 := x1) (c1 := c1) (u2 := u2) (u3 := u3)
    (i0 := i0) (i1 := i1) (e0 := a0) (e1 := a1) (e2 := a2) (e3 := a3) (o0 := o0) (o1 := o1) (o2 := o2) (o3 := o3)
    (by rw [List.length_append]; omega) ⟨?_, ?_, ?_⟩ ?_ ?_ ?_ (by omega) hq ?_
  · rintro rfl; exact k0 (by decide)
  · rintro rfl; exact k0 (by decide)
  · rintro rfl; exact k0 (by decide)
  · rintro rfl; exact k1 (by decide)
  · rintro rfl; exact k2 (by decide)
  · rintro rfl; exact k3 (by decide)
  · unfold OccursAt at hocc ⊢
    rw [show j = a.length + (name ++ comment).length by rw [List.length_append]; omega, ← List.drop_drop, List.drop_left] at hocc
    exact hocc

end AsyncZip
