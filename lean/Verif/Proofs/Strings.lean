import Verif.Proofs.Utf8
import Verif.Proofs.Rd
import Verif.Model.EntryReader
/-!
# UTF-8 safety of strings
-/

namespace AsyncZip
open Spec Rd

/-- Whatever text the accessors hand out is UTF-8. -/
def Spec.Utf8Safe (z : ZipString) : Prop := ∀ t, z.asStr = .ok t ∨ z.intoString = .ok t → IsUtf8 t

theorem utf8Safe_of {z : ZipString} (h : z.encoding = .utf8 → utf8Valid z.raw = true) : Utf8Safe z := by
  intro t ht
  unfold ZipString.asStr ZipString.intoString at ht
  cases he : z.encoding with
  | utf8 =>
    simp only [he, Except.ok.injEq, or_self] at ht
    rw [← ht]
    exact (utf8Valid_iff _).1 (h he)
  | raw => simp [he] at ht

theorem utf8Safe_new (raw : Bytes) (enc : StringEncoding) : Utf8Safe (ZipString.new raw enc) := by
  apply utf8Safe_of
  unfold ZipString.new
  cases enc with
  | utf8 =>
    simp only
    intro h
    split at h
    · assumption
    · cases h
  | raw => intro h; cases h

theorem utf8Safe_alt (s : RString) (alt : Bytes) : Utf8Safe (ZipString.newWithAlternative s alt) :=
  utf8Safe_of fun _ => s.valid

theorem utf8Safe_fallback (basic : Bytes) (u : Option Bytes) : Utf8Safe (detectFallback basic u) := by
  have hplain : Utf8Safe (if isAscii basic then { encoding := .utf8, raw := basic, alternative := none }
      else ZipString.new basic .raw) := by
    split
    · exact utf8Safe_of fun _ => utf8Valid_of_ascii _ ‹_›
    · exact utf8Safe_new _ _
  unfold detectFallback
  simp only []
  split
  · split
    · exact utf8Safe_alt _ _
    · exact hplain
  · exact hplain

theorem utf8Safe_filename (basic : Bytes) (f : Bool) (fs : List ExtraField) : Utf8Safe (detectFilename basic f fs) := by
  unfold detectFilename
  split
  · exact utf8Safe_new _ _
  · exact utf8Safe_fallback _ _

theorem utf8Safe_comment (basic : Bytes) (f : Bool) (fs : List ExtraField) : Utf8Safe (detectComment basic f fs) := by
  unfold detectComment
  split
  · exact utf8Safe_new _ _
  · exact utf8Safe_fallback _ _

/-- Names and comments of an entry are safe. -/
def Spec.EntrySafe (e : ZipEntry) : Prop := Utf8Safe e.filename ∧ Utf8Safe e.comment

theorem cdRecord_safe (b : Build) : Ensures (cdRecord b) (fun e => EntrySafe e.entry) := by
  unfold cdRecord
  refine Ensures.bind' fun _ => Ensures.bind' fun _ => Ensures.bind' fun _ => Ensures.bind' fun _ =>
    Ensures.bind' fun _ => Ensures.bind' fun _ => Ensures.bind' fun _ => Ensures.pure ?_
  exact ⟨utf8Safe_filename _ _ _, utf8Safe_comment _ _ _⟩

theorem cdLoop_safe (b : Build) (n : Nat) : Ensures (cdLoop b n) (fun es => ∀ e ∈ es, EntrySafe e.entry) := by
  induction n with
  | zero => exact Ensures.pure (by simp)
  | succ n ih =>
    refine Ensures.bind (cdRecord_safe b) fun e he => Ensures.bind ih fun es hes => Ensures.pure ?_
    intro x hx
    rcases List.mem_cons.1 hx with rfl | hx
    · exact he
    · exact hes x hx

end AsyncZip
