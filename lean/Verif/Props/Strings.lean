import Verif.Proofs.Strings
/-!
# C11: strings reported as UTF-8 are UTF-8
-/

namespace AsyncZip
open Spec Rd

/-- C11. The modelled `from_utf8` accepts exactly the encodings of sequences of Unicode scalar values. -/
theorem C11_validator_exact (b : Bytes) : utf8Valid b = true ↔ IsUtf8 b := utf8Valid_iff b

/-- C11. Strings from every public constructor are safe; bytes that are not UTF-8 are kept and reported as raw. -/
theorem C11_constructors (raw alt : Bytes) (enc : StringEncoding) (s : RString) :
    Utf8Safe (ZipString.new raw enc) ∧ Utf8Safe (ZipString.newWithAlternative s alt) ∧ Utf8Safe (ZipString.ofString s) ∧
    (ZipString.new raw enc).asBytes = raw ∧
    (¬ IsUtf8 raw → ZipString.new raw .utf8 = { encoding := .raw, raw, alternative := none }) ∧
    (IsUtf8 raw → (ZipString.new raw .utf8).asStr = .ok raw) := by
  refine ⟨utf8Safe_new _ _, utf8Safe_alt _ _, utf8Safe_of fun _ => s.valid, rfl, ?_, ?_⟩
  · intro h
    rw [← utf8Valid_iff] at h
    simp [ZipString.new, h]
  · intro h
    rw [← utf8Valid_iff] at h
    simp [ZipString.new, ZipString.asStr, h]

/-- C11. Opening any bytes under any schedule: the archive comment and all names and comments are safe. -/
theorem C11_opened_archive (b : Build) (s s' : RState) (f : ZipFile) (h : openFile b s = (.ok f, s')) :
    Utf8Safe f.comment ∧ ∀ e ∈ f.entries, EntrySafe e.entry := by
  have : Ensures (openFile b) fun f => Utf8Safe f.comment ∧ ∀ e ∈ f.entries, EntrySafe e.entry := by
    unfold openFile
    refine Ensures.bind' fun _ => Ensures.bind' fun _ => Ensures.bind' fun _ =>
      Ensures.bind (Q := fun c => Utf8Safe c) (Ensures.bind' fun _ => Ensures.pure (utf8Safe_new _ _)) fun c hc =>
      Ensures.bind' fun x => ?_
    obtain ⟨r, z⟩ := x
    simp only
    split
    · exact Ensures.fail
    · refine Ensures.bind' fun _ => Ensures.bind (Q := fun es => ∀ e ∈ es, EntrySafe e.entry) ?_ fun es hes =>
        Ensures.pure ⟨hc, hes⟩
      unfold cd
      split
      · exact Ensures.fail
      · exact cdLoop_safe b _
  exact this s f s' h

/-- C11. The same for entries found by the streaming reader. -/
theorem C11_streamed_entry (b : Build) (s s' : RState) (r : Reading) (h : streamNext b s = (.ok (some r), s')) :
    EntrySafe r.entry := by
  have h1 : Ensures (lfh b) fun o => ∀ e, o = some e → EntrySafe e := by
    unfold lfh
    refine Ensures.bind' fun _ => ?_
    simp only
    split
    · refine Ensures.bind' fun _ => Ensures.bind' fun _ => Ensures.bind' fun _ => Ensures.bind' fun _ =>
        Ensures.bind' fun _ => ?_
      split
      · exact Ensures.fail
      · split
        · exact Ensures.fail
        · refine Ensures.pure ?_
          intro e he
          cases he
          exact ⟨utf8Safe_filename _ _ _, utf8Safe_of fun _ => rfl⟩
    · split
      · exact Ensures.pure (by intro e he; cases he)
      · exact Ensures.fail
  have h2 : Ensures (streamNext b) fun o => ∀ r, o = some r → EntrySafe r.entry := by
    unfold streamNext
    refine Ensures.bind h1 fun o ho => ?_
    cases o with
    | none => exact Ensures.pure (by intro r hr; cases hr)
    | some e =>
      refine Ensures.pure ?_
      intro r hr
      cases hr
      exact ho e rfl
  exact h2 s _ s' h r rfl

example : IsUtf8 [0xF0, 0x9F, 0x98, 0x80, 0xC3, 0xA9] := ⟨[0x1F600, 0xE9], by simp [IsScalar], by decide⟩
example : ¬ IsUtf8 [0xED, 0xA0, 0x80] := by rw [← utf8Valid_iff]; decide

end AsyncZip
