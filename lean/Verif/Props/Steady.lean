import Verif.Proofs.Steady
import Verif.Props.Visits
import Verif.Props.Agree
/-!
# C65: reading does not depend on how the source answers or on the caller's buffers
-/

namespace AsyncZip
open Spec Rd

/-- C65, streaming: over the same data, well-formed or not, two clients that skip and read the same entries see the same
entries and data, or get the same error, whatever their sources' schedules and the sizes of their buffers, unless one of the
sources fails or one of the clients gives up. -/
theorem C65_streaming (C : Codec) (b : Build) (vs vs' : List Visit) (h : SamePlan vs vs') (s s' : RState)
    (hd : s.data = s'.data) (hp : s.pos = s'.pos) : Steady (visits C b vs s).1 (visits C b vs' s').1 :=
  (InStep.visits C b h hd hp).steady fun _ _ _ _ h => h.1

/-- C65, through a directory: whatever the listing and the data, an entry is read the same, or with the same error, from
wherever the source stands, however it answers and whatever the sizes of the buffers. -/
theorem C65_seekable (C : Codec) (f : ZipFile) (i chunk chunk' : Nat) (hc : 0 < chunk) (hc' : 0 < chunk') (s s' : RState)
    (hd : s.data = s'.data) : Steady (checkedRead C f i chunk s).1 (checkedRead C f i chunk' s').1 :=
  (InStep.checkedRead C f i hc hc' hd).steady fun _ _ _ _ h => h.1

/-- C65 with `C28_completes`: one pattern of answers that gets through speaks for all. -/
theorem C65_one_for_all (C : Codec) (b : Build) (vs : List Visit) (data : Bytes) (pos : Nat) :
    ∃ r, ¬ Interrupted r ∧ ∀ vs', SamePlan vs vs' → ∀ s : RState, s.data = data → s.pos = pos →
      Interrupted (visits C b vs' s).1 ∨ (visits C b vs' s).1 = r := by
  obtain ⟨k, hk⟩ := C28_completes C b vs 0 data pos
  refine ⟨_, hk 0 [], fun vs' h s hs hp => ?_⟩
  rcases C65_streaming C b vs vs' h ⟨data, pos, some (List.replicate (k + 0) (.chunk 0)), []⟩ s hs.symm hp.symm with g | g | g
  · exact absurd g (hk 0 [])
  · exact Or.inl g
  · exact Or.inr g.symm

/-- C65, concretely, where reading fails: the second header is not found by the ideal source, so no source finds it. -/
example (s : RState) (hs : s.data = Samples.trailing) (hp : s.pos = 0) :
    Interrupted (visits Samples.lengthCodec Samples.build [.skip, .read 7] s).1 ∨
      (visits Samples.lengthCodec Samples.build [.skip, .read 7] s).1 =
        .error (.err (.unexpectedHeaderError 0x014b5000 LFH_SIGNATURE)) := by
  have hr : (visits Samples.lengthCodec Samples.build [.skip, .read 1] ⟨Samples.trailing, 0, none, []⟩).1 =
      .error (.err (.unexpectedHeaderError 0x014b5000 LFH_SIGNATURE)) := by
    obtain ⟨r, g1, g2, _, _, _, h⟩ := Samples.trailing_next Samples.build
    obtain ⟨l, e⟩ := h []
    have e1 : (EntryReader.new .deflate 4).readLoop Samples.lengthCodec 2048 [] ⟨Samples.trailing, 31, none, l⟩ = _ :=
      (readLoop_step (show (EntryReader.new .deflate 4).read Samples.lengthCodec 2048 ⟨Samples.trailing, 31, none, l⟩ =
        (.ok ([104, 105], ⟨.deflate, 4, some ⟨[], 3, true⟩, Hasher.new.update [104, 105]⟩), ⟨Samples.trailing, 31, none, l⟩)
        from rfl) (by decide)).trans (readLoop_stop (s' := ⟨Samples.trailing, 34, none, l⟩) rfl)
    have e3 : r.skip Samples.lengthCodec ⟨Samples.trailing, 31, none, l⟩ = (.ok (), ⟨Samples.trailing, 34, none, l⟩) := by
      unfold Reading.skip EntryReader.readToEnd
      rw [g1, g2]
      exact bind_of_ok e1
    have e4 : visit Samples.lengthCodec Samples.build .skip ⟨Samples.trailing, 0, none, []⟩ =
        (.ok (some (r.entry, none)), ⟨Samples.trailing, 34, none, l⟩) := by
      unfold visit
      rw [bind_of_ok e]
      exact bind_of_ok e3
    have h4 : ((Samples.trailing.drop 34).take 4).length = 4 := by decide
    have hr : Runs (lfh Samples.build) Samples.trailing 34
        (.error (.err (.unexpectedHeaderError (fromLe32 ((Samples.trailing.drop 34).take 4)) LFH_SIGNATURE))) 38 :=
      Runs.bind (Runs.readExact rfl h4) (Runs.ite_neg (by decide) (Runs.ite_neg (by decide) Runs.fail))
    obtain ⟨l', e'⟩ := hr l
    unfold visits
    rw [bind_of_ok e4]
    have e6 : (visits Samples.lengthCodec Samples.build [.read 1] ⟨Samples.trailing, 34, none, l⟩).1 =
        .error (.err (.unexpectedHeaderError 0x014b5000 LFH_SIGNATURE)) := by
      unfold visits visit streamNext
      rw [bind_of_error (bind_of_error (bind_of_error e'))]
      dsimp only
      congr 3
    dsimp only
    rw [bind_of_error (Prod.ext e6 rfl)]
  rcases C65_streaming Samples.lengthCodec Samples.build [.skip, .read 1] [.skip, .read 7]
    (.cons .skip (.cons (.read (by omega) (by omega)) .nil)) ⟨Samples.trailing, 0, none, []⟩ s hs.symm hp.symm with g | g | g
  · rw [hr] at g
    rcases g with g | ⟨c, g⟩ <;> cases g
  · exact Or.inl g
  · exact Or.inr (by rw [← g, hr])

/-- C65, through a directory: what the ideal source gives at the start in one go, any source gives from anywhere in bits and
pieces. -/
example : ∃ f : ZipFile, f.entries.length = 1 ∧ ∀ s : RState, s.data = Samples.twofaced →
    Interrupted (checkedRead Samples.markCodec f 0 1 s).1 ∨ (checkedRead Samples.markCodec f 0 1 s).1 = .ok [104, 105] := by
  obtain ⟨f, x, _, hf, _, _, _, hr, _⟩ := C62_twofaced_fails
  refine ⟨f, by rw [hf]; rfl, fun s hs => ?_⟩
  rcases C65_seekable Samples.markCodec f 0 9 1 (by omega) (by omega) ⟨Samples.twofaced, 0, none, []⟩ s hs.symm with g | g | g
  · rw [hr] at g
    exact absurd g not_interrupted_ok
  · exact Or.inl g
  · exact Or.inr (by rw [← g, hr])

end AsyncZip
