import Verif.Proofs.Directory
import Verif.Proofs.OpenSpec
/-!
# When the end record is the last thing that looks like one, and what opening makes of the comment
-/

namespace AsyncZip
open Spec Rd

/-- An opened archive's comment is what follows the last end record. -/
theorem openFile_comment {b : Build} {s s' : RState} {f : ZipFile} (h : openFile b s = (.ok f, s')) :
    ∃ j, LastEnd s.data j ∧ j + 22 ≤ s.data.length ∧
      f.comment = ZipString.new (window s.data (j + 22) (fieldAt s.data (j + 20) 2)) .utf8 := by
  unfold openFile at h
  replace h := bind_ok_iff.1 h
  obtain ⟨off, s1, h1, h⟩ := h
  have k1 := (locateEocdr_keeps s).1
  rw [h1] at k1
  simp only at k1
  rcases locateEocdr_spec s s1 _ h1 with ⟨j, hr, ho, hl⟩ | ⟨hr, _⟩ | hi
  · simp only [Except.ok.injEq] at hr
    subst hr
    have hj : LastEnd s.data j := ⟨ho, hl⟩
    replace h := bind_ok_iff.1 h
    obtain ⟨_, s2, h2, h⟩ := h
    obtain ⟨_, a2, a3⟩ := seekTo_ok h2
    replace h := bind_ok_iff.1 h
    obtain ⟨eo, s3, h3, h⟩ := h
    replace h3 := bind_ok_iff.1 h3
    obtain ⟨eb, s4, h4, h3⟩ := h3
    obtain ⟨b1, b2, b3, b4⟩ := readExact_ok h4
    simp only [pure_def, Prod.mk.injEq, Except.ok.injEq] at h3
    obtain ⟨rfl, rfl⟩ := h3
    rw [a2, a3, k1] at b1
    replace h := bind_ok_iff.1 h
    obtain ⟨cm, s5, h5, h⟩ := h
    replace h5 := bind_ok_iff.1 h5
    obtain ⟨cb, s6, h6, h5⟩ := h5
    obtain ⟨c1, c2, c3⟩ := readBytes_ok h6
    simp only [pure_def, Prod.mk.injEq, Except.ok.injEq] at h5
    obtain ⟨rfl, rfl⟩ := h5
    replace h := bind_ok_iff.1 h
    obtain ⟨⟨r, z⟩, s7, h7, h⟩ := h
    have hlen : j + 22 ≤ s.data.length := by
      have := congrArg List.length b1
      rw [List.length_take, List.length_drop, b2] at this
      omega
    simp only at h
    split at h
    · simp at h
    · replace h := bind_ok_iff.1 h
      obtain ⟨_, s8, h8, h⟩ := h
      replace h := bind_ok_iff.1 h
      obtain ⟨es, s9, h9, h⟩ := h
      simp only [pure_def, Prod.mk.injEq, Except.ok.injEq] at h
      obtain ⟨rfl, rfl⟩ := h
      refine ⟨j, hj, hlen, ?_⟩
      rw [c1, b3, b4, a2, a3, k1]
      have := read16 (data := s.data) b1 b2 16 (by omega)
      rw [show (EndOfCentralDirectoryHeader.ofBytes eb).fileCommLength.toNat = _ from this]
      rfl
  · cases hr
  · exact absurd hi not_interrupted_ok

/-- An end record whose counts, sizes and comment length have small last bytes contains no other signature. -/
theorem no_signature {a0 a1 b0 b1 s0 s1 s2 s3 o0 o1 o2 o3 l0 l1 : UInt8} {c : Bytes} (ha : a1.toNat < 5) (hb : b1.toNat < 5)
    (hs : s3.toNat < 5) (ho : o3.toNat < 5) (hl : l1.toNat < 75) (hc : ∀ i, ¬ OccursAt c sigEnd i) (d : Nat) (hd : 0 < d) :
    ¬ OccursAt (80 :: 75 :: 5 :: 6 :: 0 :: 0 :: 0 :: 0 :: a0 :: a1 :: b0 :: b1 :: s0 :: s1 :: s2 :: s3 :: o0 :: o1 :: o2 :: o3 ::
      l0 :: l1 :: c) sigEnd d := by
  have small : ∀ {x : UInt8}, x.toNat < 5 → x ≠ 80 ∧ x ≠ 75 ∧ x ≠ 5 ∧ x ≠ 6 := fun h =>
    ⟨fun e => by rw [e] at h; exact absurd h (by decide), fun e => by rw [e] at h; exact absurd h (by decide),
      fun e => by rw [e] at h; exact absurd h (by decide), fun e => by rw [e] at h; exact absurd h (by decide)⟩
  obtain ⟨a, a', a'', a'''⟩ := small ha
  obtain ⟨b, b', b'', b'''⟩ := small hb
  obtain ⟨s, s', s'', s'''⟩ := small hs
  obtain ⟨o, o', o'', o'''⟩ := small ho
  have l : l1 ≠ 80 ∧ l1 ≠ 75 := ⟨fun e => by rw [e] at hl; exact absurd hl (by decide),
    fun e => by rw [e] at hl; exact absurd hl (by decide)⟩
  match d, hd with
  | 1, _ | 2, _ | 3, _ | 4, _ | 5, _ | 6, _ | 7, _ | 8, _ | 9, _ | 10, _ | 11, _ | 12, _ | 13, _ | 14, _ | 15, _ | 16, _ | 17, _
  | 18, _ | 19, _ | 20, _ | 21, _ => simp_all [OccursAt, sigEnd]
  | d + 22, _ => exact hc d

theorem top16 (n : UInt16) (k : Nat) (h : n.toNat < 256 * k) : ∃ a b, le16 n = [a, b] ∧ b.toNat < k := by
  have hn := leNat_leBytes 2 n.toNat
  rw [Nat.mod_eq_of_lt n.toNat_lt] at hn
  have hl : (le16 n).length = 2 := le16_length n
  rw [← le16] at hn
  generalize le16 n = b at hn hl
  match b, hl with
  | [x, y], _ =>
    refine ⟨x, y, rfl, ?_⟩
    simp only [leNat] at hn
    omega

theorem top32 (n : UInt32) (k : Nat) (h : n.toNat < 256 ^ 3 * k) : ∃ a b c d, le32 n = [a, b, c, d] ∧ d.toNat < k := by
  have hn := leNat_leBytes 4 n.toNat
  rw [Nat.mod_eq_of_lt n.toNat_lt] at hn
  have hl : (le32 n).length = 4 := le32_length n
  rw [← le32] at hn
  generalize le32 n = b at hn hl
  match b, hl with
  | [x, y, z, w], _ =>
    refine ⟨x, y, z, w, rfl, ?_⟩
    simp only [leNat] at hn
    omega

/-- In an archive that is not too large, with a comment that does not contain the signature, the end record is the last
thing that looks like one. -/
theorem last_end (out cd : Bytes) (z : Bool) (n : Nat) (comment : Bytes) (hn : n < 0x500) (hcd : cd.length < 0x5000000)
    (hout : out.length < 0x5000000) (hl : comment.length < 0x4B00) (hc : ∀ i, ¬ OccursAt comment sigEnd i) :
    LastEnd (archiveBytes out cd z n comment) (endAt out cd z) := by
  have hd := archive_drop_end out cd z n comment
  refine ⟨?_, fun j' hj => Nat.le_of_not_lt fun hlt => ?_⟩
  · have := occurs_of_drop hd
    rwa [show le32 EOCDR_SIGNATURE = sigEnd by decide] at this
  · obtain ⟨a0, a1, ha, ha'⟩ := top16 (clamp16 n) 5 (by rw [clamp16_toNat n (by omega)]; omega)
    obtain ⟨s0, s1, s2, s3, hs, hs'⟩ := top32 (clamp32 cd.length) 5 (by rw [clamp32_toNat _ (by omega)]; omega)
    obtain ⟨o0, o1, o2, o3, ho, ho'⟩ := top32 (clamp32 out.length) 5 (by rw [clamp32_toNat _ (by omega)]; omega)
    obtain ⟨l0, l1, hl, hl'⟩ := top16 (UInt16.ofNat comment.length) 75 (by
      rw [UInt16.toNat_ofNat', Nat.mod_eq_of_lt (by omega)]; omega)
    have hbytes : le32 EOCDR_SIGNATURE ++ ((eocdrOf n cd.length out.length comment).asSlice ++ comment) =
        80 :: 75 :: 5 :: 6 :: 0 :: 0 :: 0 :: 0 :: a0 :: a1 :: a0 :: a1 :: s0 :: s1 :: s2 :: s3 :: o0 :: o1 :: o2 :: o3 ::
      l0 :: l1 :: comment := by
      unfold EndOfCentralDirectoryHeader.asSlice eocdrOf
      simp only [ha, hs, ho, hl]
      rfl
    rw [hbytes] at hd
    refine no_signature (a0 := a0) (b0 := a0) (s0 := s0) (s1 := s1) (s2 := s2) (o0 := o0) (o1 := o1) (o2 := o2) (l0 := l0)
      ha' ha' hs' ho' hl' hc (j' - endAt out cd z) (by omega) ?_
    unfold OccursAt at hj ⊢
    rw [← hd, List.drop_drop, show endAt out cd z + (j' - endAt out cd z) = j' by omega]
    exact hj

end AsyncZip
