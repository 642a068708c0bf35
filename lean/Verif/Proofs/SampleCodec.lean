import Verif.Samples.Programs
import Verif.Spec.Codec
/-!
# The sample codec is lossless
-/

namespace AsyncZip.Samples
open Spec

theorem markDecode_byte (x : UInt8) (r : Bytes) :
    markDecode (1 :: x :: r) = ⟨x :: (markDecode r).out, (markDecode r).used + 2, (markDecode r).ok⟩ := by
  rw [markDecode]; simp

theorem markDecode_flush (r : Bytes) :
    (markDecode (2 :: r)).out = (markDecode r).out ∧ (r ≠ [] → (markDecode (2 :: r)).used = (markDecode r).used + 1) ∧
      (markDecode (2 :: r)).ok = (markDecode r).ok := by
  cases r with
  | nil => exact ⟨rfl, fun h => absurd rfl h, rfl⟩
  | cons x r => rw [markDecode]; simp

theorem markDecode_data (b : Bytes) : ∀ r : Bytes, markDecode (b.flatMap (fun x => [1, x]) ++ r) =
    ⟨b ++ (markDecode r).out, (markDecode r).used + (b.flatMap fun x => [(1 : UInt8), x]).length, (markDecode r).ok⟩ := by
  induction b with
  | nil => intro r; rfl
  | cons x b ih =>
    intro r
    rw [List.flatMap_cons]
    show markDecode (1 :: x :: (b.flatMap (fun x => [1, x]) ++ r)) = _
    rw [markDecode_byte, ih]
    simp only [List.cons_append, List.nil_append, List.length_cons, DecodeResult.mk.injEq, and_true, true_and]
    omega

theorem markDecode_encodes {i o : List UInt8} {e s : markCodec.Enc} (h : Encodes markCodec e i o s) : ∀ r : Bytes, r ≠ [] →
    markDecode (o ++ r) = ⟨i ++ (markDecode r).out, (markDecode r).used + o.length, (markDecode r).ok⟩ := by
  induction h with
  | start => intro r _; rfl
  | @feed i o s b _ ih =>
    intro r hr
    have hf : (markCodec.feed s b).2 = b.flatMap fun x => [1, x] := rfl
    rw [hf, List.append_assoc, ih _ (by simp [hr]), markDecode_data]
    simp only [List.append_assoc, List.length_append, DecodeResult.mk.injEq, and_true, true_and]
    omega
  | @flush i o s _ ih =>
    intro r hr
    have hf : (markCodec.flush s).2 = [2] := rfl
    rw [hf, List.append_assoc, ih _ (by simp)]
    show (⟨_, (markDecode (2 :: r)).used + _, _⟩ : DecodeResult) = _
    obtain ⟨h1, h2, h3⟩ := markDecode_flush r
    have e : [(2 : UInt8)] ++ r = 2 :: r := rfl
    rw [e, h1, h2 hr, h3]
    simp only [List.length_append, List.length_singleton, DecodeResult.mk.injEq, and_true, true_and]
    omega

theorem markCodec_lawful : Lawful markCodec := by
  intro c l _ _ i o s h rest
  show markDecode (o ++ [0] ++ rest) = ⟨i, (o ++ [0]).length, true⟩
  rw [List.append_assoc, markDecode_encodes h _ (by simp)]
  have : markDecode ([0] ++ rest) = ⟨[], 1, true⟩ := by
    cases rest <;> simp [markDecode]
  rw [this]
  simp only [List.append_nil, List.length_append, List.length_singleton, DecodeResult.mk.injEq, true_and, and_true]
  omega

end AsyncZip.Samples
