import Verif.Props.Streaming
import Verif.Props.Opening
import Verif.Model.Sessions
/-!
# C50: reading entries of arbitrary data does not panic
-/

namespace AsyncZip
open Spec Rd

theorem awaitChunk_noPanic (n : Nat) : NoPanic (awaitChunk n) := by
  intro s
  unfold awaitChunk
  cases hs : s.sched with
  | none => intro h; cases h
  | some rs =>
    show (awaitSched n s rs).1 ≠ _
    clear hs
    induction rs with
    | nil => intro h; cases h
    | cons r rs ih =>
      cases r with
      | pending => exact ih
      | chunk c => intro h; cases h
      | error c => intro h; cases h

theorem EntryReader.read_noPanic (C : Codec) (er : EntryReader) (n : Nat) : NoPanic (er.read C n) := by
  intro s
  unfold EntryReader.read
  split
  · split
    · intro h; cases h
    · have := readOnce_noPanic (min n er.limit) s
      split
      · intro h; cases h
      · rename_i e _ hr
        rw [hr] at this
        exact fun h => this (by cases h; rfl)
  · split
    · intro h; cases h
    · have := awaitChunk_noPanic n s
      split
      · rename_i e _ hr
        rw [hr] at this
        exact fun h => this (by cases h; rfl)
      · unfold EntryReader.deliver
        split
        · split
          · intro h; cases h
          · intro h; cases h
        · intro h; cases h

theorem EntryReader.readLoop_noPanic (C : Codec) (chunk : Nat) (er : EntryReader) (acc : Bytes) (s : RState) :
    (er.readLoop C chunk acc s).1 ≠ .error .panic := by
  induction hm : er.remaining C s using Nat.strongRecOn generalizing er acc s with
  | _ m ih =>
  have hr := er.read_noPanic C chunk s
  unfold EntryReader.readLoop
  split
  · rename_i b er' s' h1
    split
    · intro h; cases h
    · rename_i hb
      exact ih _ (by rw [← hm]; exact EntryReader.read_remaining_lt h1 hb) _ _ _ rfl
  · rename_i e s' h1
    rw [h1] at hr
    exact fun h => hr (by cases h; rfl)

theorem EntryReader.readToEnd_noPanic (C : Codec) (chunk : Nat) (er : EntryReader) : NoPanic (er.readToEnd C chunk) :=
  fun s => er.readLoop_noPanic C chunk [] s

theorem readerWithEntry_noPanic (f : ZipFile) (i : Nat) : NoPanic (readerWithEntry f i) := by
  unfold readerWithEntry
  cases f.entries[i]? with
  | none => exact NoPanic.throwErr
  | some e =>
    refine NoPanic.bind ?_ fun _ => NoPanic.pure
    refine NoPanic.bind (seekTo_noPanic _) fun _ => NoPanic.bind (readExact_noPanic _) fun _ => NoPanic.ite ?_ NoPanic.throwErr
    exact NoPanic.bind (NoPanic.bind (readExact_noPanic _) fun _ => NoPanic.pure) fun _ =>
      NoPanic.bind (seekForward_noPanic _) fun _ => NoPanic.pure

theorem consumeDataDescriptor_noPanic : NoPanic consumeDataDescriptor :=
  NoPanic.bind (readExact_noPanic _) fun _ => NoPanic.ite (NoPanic.bind (readExact_noPanic _) fun _ => NoPanic.pure) NoPanic.pure

theorem callReader_noPanic (C : Codec) (er : EntryReader) (c : Call) (s : RState) :
    (callReader C er c s).1.failure ≠ some .panic := by
  cases c with
  | «open» i => intro h; cases h
  | computeHash => intro h; cases h
  | read n =>
    have := er.read_noPanic C n s
    unfold callReader
    simp only []
    split
    · intro h; cases h
    · rename_i hr
      rw [hr] at this
      exact fun h => this (by cases h; rfl)
  | readToEnd n =>
    have := er.readToEnd_noPanic C n s
    unfold callReader
    simp only []
    split
    · intro h; cases h
    · rename_i hr
      rw [hr] at this
      exact fun h => this (by cases h; rfl)

theorem callOpen_noPanic (f : ZipFile) (i : Nat) (s : RState) : (callOpen f i s).1.failure ≠ some .panic := by
  have := readerWithEntry_noPanic f i s
  unfold callOpen
  split
  · intro h; cases h
  · rename_i hr
    rw [hr] at this
    exact fun h => this (by cases h; rfl)

/-- C50. No sequence of calls on a seekable reader panics, whatever the data, however the source behaves, and whatever the
listing says (it may have been put together by the caller). -/
theorem C50_seekable (C : Codec) (f : ZipFile) (calls : List Call) (st : Option EntryReader × RState) :
    ∀ seen ∈ (seekSession C f calls st).1, seen.failure ≠ some .panic := by
  induction calls generalizing st with
  | nil => exact fun _ h => absurd h List.not_mem_nil
  | cons c cs ih =>
    show ∀ seen ∈ (seekCall C f c st).1 :: _, _
    rw [List.forall_mem_cons]
    refine ⟨?_, ih _⟩
    obtain ⟨er, s⟩ := st
    cases c with
    | «open» i => exact callOpen_noPanic f i s
    | read n =>
      cases er with
      | none => exact fun h => by cases h
      | some er => exact callReader_noPanic C er _ s
    | readToEnd n =>
      cases er with
      | none => exact fun h => by cases h
      | some er => exact callReader_noPanic C er _ s
    | computeHash =>
      cases er with
      | none => exact fun h => by cases h
      | some er => exact callReader_noPanic C er _ s

/-- C50. Nor does any interleaving of calls by users of a shared in-memory or file reader. -/
theorem C50_shared (C : Codec) (data : Bytes) (f : ZipFile) (calls : List SharedCall) (w : World) (u : Nat) :
    ∀ seen, (u, seen) ∈ sharedRun C data f calls w → seen.failure ≠ some .panic := by
  induction calls generalizing w with
  | nil => exact fun _ h => absurd h List.not_mem_nil
  | cons c cs ih =>
    intro seen hs
    replace hs : (u, seen) ∈ (c.user, (sharedCall C data f c w).1) :: _ := hs
    rcases List.mem_cons.1 hs with hs | hs
    swap
    · exact ih _ _ hs
    rw [show seen = (sharedCall C data f c w).1 from congrArg Prod.snd hs]
    intro h
    unfold sharedCall at h
    split at h
    · split at h
      · cases h
      · split at h
        · cases h
        · rename_i i _ _ _ _
          have := callOpen_noPanic f i ⟨data, 0, c.sched, []⟩
          split at h
          · rename_i hr
            rw [hr] at this
            exact this h
          · rename_i hr
            rw [hr] at this
            exact this h
    · split at h
      · cases h
      · rename_i call _ _ er s _
        have := callReader_noPanic C er c.call s
        split at h
        · rename_i hr
          rw [hr] at this
          exact this h
        · rename_i hr
          rw [hr] at this
          exact this h

/-- C50. Checked reads, skipping and finishing an entry do not panic either. -/
theorem C50_checked (C : Codec) (er : EntryReader) (chunk : Nat) (crc : UInt32) (r : Reading) (s : RState) :
    (er.readToEndChecked C chunk crc s).1 ≠ .error .panic ∧ (er.readToStringChecked C chunk crc s).1 ≠ .error .panic ∧
    (r.done C s).1 ≠ .error .panic ∧ (r.skip C s).1 ≠ .error .panic := by
  refine ⟨?_, ?_, ?_, ?_⟩
  · exact NoPanic.bind (er.readToEnd_noPanic C chunk) (fun _ => NoPanic.ite NoPanic.pure NoPanic.throwErr) s
  · refine NoPanic.bind (er.readToEnd_noPanic C chunk) (fun x => ?_) s
    intro s
    simp only []
    split
    · exact NoPanic.ite NoPanic.pure NoPanic.throwErr s
    · exact NoPanic.throwErr s
  · exact NoPanic.bind (r.reader.read_noPanic C 1) (fun _ =>
      NoPanic.ite NoPanic.throwErr (NoPanic.ite consumeDataDescriptor_noPanic NoPanic.pure)) s
  · exact NoPanic.bind (r.reader.readToEnd_noPanic C 2048) (fun _ => NoPanic.ite consumeDataDescriptor_noPanic NoPanic.pure) s

/-- The local header at `off` has an extra field in which a block claims more bytes than remain. -/
def OverlongLocal (data : Bytes) (off : Nat) : Prop :=
  OccursAt data sigLocal off ∧ off + 30 ≤ data.length ∧ ∃ blocks tail,
    Blocks (window data (off + 30 + fieldAt data (off + 26) 2) (fieldAt data (off + 28) 2)) blocks tail ∧ Overlong tail

/-- C50, the streaming reader: asking for the next entry panics at most in builds with overflow checks, and only at a local
header with an overlong extra field. -/
theorem C50_streaming_partial (b : Build) (s : RState) (h : (streamNext b s).1 = .error .panic) :
    b.overflowChecks = true ∧ OverlongLocal s.data s.pos := by
  cases hr : streamNext b s with
  | mk r s' =>
  rw [hr] at h
  simp only at h
  subst h
  rcases bind_error_iff.1 hr with hr | ⟨e, s1, _, hr⟩
  swap
  · cases e with
    | none => cases hr
    | some e => cases hr
  unfold lfh at hr
  replace h := bind_panic hr (readExact_noPanic _)
  obtain ⟨sg, s1, h1, h⟩ := h
  obtain ⟨a1, a2, a3, a4⟩ := readExact_ok h1
  split at h
  · rename_i hs
    rw [fromLe32_eq_iff a2] at hs
    replace h := bind_panic h (NoPanic.bind (readExact_noPanic _) fun _ => NoPanic.pure)
    obtain ⟨hd, s2, h2, h⟩ := h
    replace h2 := bind_ok_iff.1 h2
    obtain ⟨hb, s2', h2', h2''⟩ := h2
    obtain ⟨b1, b2, b3, b4⟩ := readExact_ok h2'
    simp only [pure_def, Prod.mk.injEq, Except.ok.injEq] at h2''
    obtain ⟨rfl, rfl⟩ := h2''
    replace h := bind_panic h (readBytes_noPanic _)
    obtain ⟨fb, s3, h3, h⟩ := h
    obtain ⟨c1, c2, c3⟩ := readBytes_ok h3
    replace h := bind_panic h (NoPanic.lift (tryFrom_noPanic _))
    obtain ⟨cm, s4, h4, h⟩ := h
    obtain ⟨d1, rfl⟩ := lift_ok h4
    replace h := bind_panic h (readBytes_noPanic _)
    obtain ⟨xf, s5, h5, h⟩ := h
    obtain ⟨e1, e2, e3⟩ := readBytes_ok h5
    rw [a3, a4] at b1
    rw [b3, b4, a3, a4] at c1
    rw [b4, a4] at c3
    rw [b3, a3] at c2
    rw [c2] at e1
    have r16 := fun i h => read16 (data := s.data) (pos := s.pos + 4) b1 b2 i h
    have hlen : s.pos + 30 ≤ s.data.length := by
      have := congrArg List.length b1
      rw [List.length_take, List.length_drop, b2] at this
      omega
    have hn : (LocalFileHeader.ofBytes hb).fileNameLength.toNat = fieldAt s.data (s.pos + 26) 2 := r16 22 (by omega)
    have hx : (LocalFileHeader.ofBytes hb).extraFieldLength.toNat = fieldAt s.data (s.pos + 28) 2 := r16 24 (by omega)
    rw [hn] at c1
    rw [hx] at e1
    have w1 := window_step (data := s.data) (p := s.pos + 4 + 26) (q := s.pos + 30) (n := fieldAt s.data (s.pos + 26) 2)
      (Or.inl (by omega))
    rw [← c1, ← c3] at w1
    have w2 := window_step (n := fieldAt s.data (s.pos + 28) 2) w1.2
    rw [← e1] at w2
    rcases bind_error_iff.1 h with h | ⟨_, s6, h6, h⟩
    · simp only [lift_def, Prod.mk.injEq, parseExtraFields] at h
      rcases parse_any b _ _ xf with ⟨fs, rs, tail, p1, _⟩ | ⟨er, p1⟩ | ⟨p1, ho, rs, tail, p2, p3⟩
      · rw [p1] at h; cases h.1
      · rw [p1] at h; cases h.1
      · rw [w2.1] at p2
        refine ⟨ho, ?_, hlen, rs, tail, p2, p3⟩
        unfold OccursAt
        rw [show sigLocal.length = 4 by decide, ← a1, hs]
        decide
    · split at h
      · cases h
      · split at h
        · cases h
        · cases h
  · split at h
    · cases h
    · cases h

/-- A local header whose extra field has one block of 5 bytes that says it is 100 long. -/
def Samples.overlongLocal : Bytes :=
  [80, 75, 3, 4, 20, 0, 0, 0, 0, 0, 0, 0, 0, 0, 0, 0, 0, 0, 0, 0, 0, 0, 0, 0, 0, 0, 1, 0, 5, 0, 97, 1, 153, 100, 0, 7]

/-- Whether a result is a panic; an error. -/
def panicked {α : Type} : Except Fail α → Bool
  | .error .panic => true
  | _ => false
@[inherit_doc panicked] def refused {α : Type} : Except Fail α → Bool
  | .error (.err _) => true
  | _ => false

/-- C50 is false of the streaming reader: 36 bytes make it panic in a build with overflow checks; in others they are
refused. -/
theorem C50_streaming_fails : (streamNext ⟨true, 0⟩ ⟨Samples.overlongLocal, 0, none, []⟩).1 = .error .panic ∧
    ∃ e, (streamNext ⟨false, 0⟩ ⟨Samples.overlongLocal, 0, none, []⟩).1 = .error (.err e) := by
  have h1 : panicked (streamNext ⟨true, 0⟩ ⟨Samples.overlongLocal, 0, none, []⟩).1 = true := by decide +kernel
  have h2 : refused (streamNext ⟨false, 0⟩ ⟨Samples.overlongLocal, 0, none, []⟩).1 = true := by decide +kernel
  constructor
  · unfold panicked at h1
    split at h1
    · assumption
    · cases h1
  · unfold refused at h2
    split at h2
    · exact ⟨_, by assumption⟩
    · cases h2

/-- C50 on data: the panic of `C50_streaming_fails` is explained by the overlong block. -/
example : OverlongLocal Samples.overlongLocal 0 :=
  (C50_streaming_partial _ _ C50_streaming_fails.1).2

end AsyncZip
