import Verif.Spec.Forcing
import Verif.Proofs.Irrelevant
import Verif.Proofs.Reopen
import Verif.Props.Limits
/-!
# C109: forcing ZIP64 on or off between the calls
-/

namespace AsyncZip
open Spec Wr

theorem Spec.Alike.refl (op : Op) : Alike op op := by
  cases op with
  | comment c => exact .comment c
  | stream e pre evs acts fin => exact .stream _ _ _ _ ⟨rfl, rfl, rfl, rfl, rfl, rfl, rfl⟩ rfl rfl rfl
  | whole e d pre evs =>
    cases pre with
    | true => exact .ready _ _ ⟨rfl, rfl, rfl, rfl, rfl, rfl, rfl⟩ rfl rfl
    | false => exact .whole _ _ ⟨rfl, rfl, rfl, rfl, rfl, rfl, rfl⟩ fun _ => rfl

theorem sim_unforced (C : Codec) (cs : List ForceCall) : ∀ {zw zw' : ZipWriter}, coreW false true zw = coreW false true zw' →
    (forceRun C zw cs).1 = (forceRun C zw' (unforced cs)).1 ∧
    coreW false true (forceRun C zw cs).2 = coreW false true (forceRun C zw' (unforced cs)).2 := by
  induction cs with
  | nil => exact fun h => ⟨rfl, h⟩
  | cons c cs ih =>
    intro zw zw' h
    cases c with
    | zip64 =>
      have h5 := coreW_comment h
      have h1 := coreW_writer h
      have h2 := coreW_entries h
      have h3 := coreW_force h
      exact ih (zw := zw.withForceZip64) (coreW_mk h1 h2 h3 rfl h5)
    | noZip64 =>
      have h5 := coreW_comment h
      have h1 := coreW_writer h
      have h2 := coreW_entries h
      exact ih (zw := zw.withForceNoZip64) (zw' := zw'.withForceNoZip64) (coreW_mk h1 h2 rfl rfl h5)
    | call op =>
      obtain ⟨h1, h2⟩ := sim_runOp (C := C) h (Alike.refl op)
      obtain ⟨k1, k2⟩ := ih h2
      refine ⟨?_, k2⟩
      have hr := congr (congrArg List.cons h1) k1
      exact hr

theorem forceRun_zip64 (C : Codec) (cs : List ForceCall) : ∀ (zw : ZipWriter), zw.isZip64 = true →
    (forceRun C zw cs).2.isZip64 = true := by
  induction cs with
  | nil => exact fun _ h => h
  | cons c cs ih =>
    intro zw h
    cases c with
    | zip64 => exact ih _ rfl
    | noZip64 => exact ih _ h
    | call op => exact ih _ ((runOp_ext C zw op).zip64 h)

theorem forceRun_forces (C : Codec) (cs : List ForceCall) (hf : Forces cs) : ∀ (zw : ZipWriter),
    (forceRun C zw cs).2.isZip64 = true := by
  induction cs with
  | nil => cases hf
  | cons c cs ih =>
    intro zw
    rcases List.mem_cons.1 hf with rfl | h
    · exact forceRun_zip64 C cs _ rfl
    · cases c with
      | zip64 => exact ih h _
      | noZip64 => exact ih h _
      | call op => exact ih h _

/-- C109. Forcing ZIP64 changes nothing until the archive is closed: all calls report what they would without it, and the sink
has been given the same bytes; whenever and however often it is done, and in every state of the writer. -/
theorem C109_until_close (C : Codec) (zw : ZipWriter) (cs : List ForceCall) :
    (forceRun C zw cs).1 = (forceRun C zw (unforced cs)).1 ∧
    (forceRun C zw cs).2.writer = (forceRun C zw (unforced cs)).2.writer := by
  obtain ⟨h1, h2⟩ := sim_unforced C cs (Eq.refl (coreW false true zw))
  exact ⟨h1, coreW_writer h2⟩

/-- C109. It does not matter when ZIP64 is forced, nor how often: the calls and the closing report the same, and the sink ends up
with the same bytes, as if it had been forced once, at first. -/
theorem C109_any_time (C : Codec) (zw : ZipWriter) (cs : List ForceCall) (evs : List Ev) (hf : Forces cs) :
    (forceArchive C zw cs evs).1 = (forceArchive C zw (.zip64 :: unforced cs) evs).1 ∧
    (forceArchive C zw cs evs).2.1 = (forceArchive C zw (.zip64 :: unforced cs) evs).2.1 ∧
    (forceArchive C zw cs evs).2.2.writer = (forceArchive C zw (.zip64 :: unforced cs) evs).2.2.writer := by
  obtain ⟨h1, h2⟩ := sim_unforced C cs (zw := zw) (zw' := zw.withForceZip64) rfl
  have hz : (forceRun C zw cs).2.isZip64 = (forceRun C zw.withForceZip64 (unforced cs)).2.isZip64 :=
    (forceRun_forces C cs hf zw).trans (forceRun_zip64 C (unforced cs) _ rfl).symm
  have h3 : coreW true true (forceRun C zw cs).2 = coreW true true (forceRun C zw.withForceZip64 (unforced cs)).2 :=
    coreW_mk (coreW_writer h2) (coreW_entries h2) (coreW_force h2) (congrArg (true && ·) hz) (coreW_comment h2)
  obtain ⟨k1, k2⟩ := sim_closeArchive ⟨_, evs⟩ ⟨_, evs⟩ ⟨h3, rfl⟩
  exact ⟨h1, k1.eq, coreW_writer k2.1⟩

theorem directory_core {cs : List CdEntry} {cd : Bytes} (h : Directory cs cd) : ∀ {cs' : List CdEntry} {cd' : Bytes},
    cs.map coreCd = cs'.map coreCd → Directory cs' cd' → cd = cd' := by
  induction h with
  | nil =>
    intro cs' cd' hm h'
    cases h' with
    | nil => rfl
    | cons _ _ => cases hm
  | @cons c cs x bs hx _ ih =>
    intro cs' cd' hm h'
    cases h' with
    | nil => cases hm
    | @cons c' cs' x' bs' hx' h' =>
      have hc : coreCd c = coreCd c' := (List.cons.inj hm).1
      have e1 := congrArg (fun c : CdEntry => c.header) hc
      replace e1 : c.header = c'.header := e1
      have e2 := congrArg (fun c : CdEntry => c.entry.filename) hc
      replace e2 : c.entry.filename = c'.entry.filename := e2
      have e3 := congrArg (fun c : CdEntry => c.entry.comment) hc
      replace e3 : c.entry.comment = c'.entry.comment := e3
      have e4 := congrArg (fun c : CdEntry => c.entry.extraFields) hc
      replace e4 : c.entry.extraFields = c'.entry.extraFields := e4
      rw [e4, hx'] at hx
      cases hx
      rw [e1, e2, e3, ih (List.cons.inj hm).2 h']

theorem unforced_of_not {cs : List ForceCall} (h : ¬ Forces cs) : unforced cs = cs := by
  induction cs with
  | nil => rfl
  | cons c cs ih =>
    have hn : ¬ Forces cs := fun hf => h (List.mem_cons_of_mem _ hf)
    cases c with
    | zip64 => exact absurd List.mem_cons_self h
    | noZip64 => exact congrArg _ (ih hn)
    | call op => exact congrArg _ (ih hn)

/-- C109. "Zip64 extended fields will only be written if needed": if both can be closed, the archive with ZIP64 forced is the one
without, or the one without with the ZIP64 end record and locator before its end record. Not a byte of an entry or of the
directory changes. -/
theorem C109_end (C : Codec) (zw : ZipWriter) (cs : List ForceCall) (evs evs' : List Ev) (sink sink' : Sink)
    (hc : (forceArchive C zw cs evs).2.1 = .ok sink) (hc' : (forceArchive C zw (unforced cs) evs').2.1 = .ok sink') :
    sink.bytes = sink'.bytes ∨
    PlusZip64End (commentBytes (forceRun C zw cs).2.commentOpt).length sink'.bytes sink.bytes := by
  obtain ⟨_, hs⟩ := sim_unforced C cs (Eq.refl (coreW false true zw))
  have k : (closeArchive ⟨(forceRun C zw cs).2, evs⟩).1 = .ok sink := hc
  have k' : (closeArchive ⟨(forceRun C zw (unforced cs)).2, evs'⟩).1 = .ok sink' := hc'
  obtain ⟨cd, z, d1, _, e, b, _⟩ := closeArchive_ok (s' := (closeArchive ⟨(forceRun C zw cs).2, evs⟩).2) (Prod.ext k rfl)
  obtain ⟨cd', z', d1', _, e', b', _⟩ :=
    closeArchive_ok (s' := (closeArchive ⟨(forceRun C zw (unforced cs)).2, evs'⟩).2) (Prod.ext k' rfl)
  have hcd := directory_core d1 (coreW_entries hs) d1'
  subst hcd
  have hcom : (forceRun C zw cs).2.commentOpt = (forceRun C zw (unforced cs)).2.commentOpt := coreW_comment hs
  rw [← coreW_writer hs, ← coreW_count hs, ← hcom] at b'
  have hstop : ∀ n size off comment, [0x50, 0x4B, 5, 6] <+: le32 EOCDR_SIGNATURE ++ ((eocdrOf n size off comment).asSlice ++ comment) :=
    fun _ _ _ _ => ⟨_, rfl⟩
  have hlen : ∀ n size off comment,
      (le32 EOCDR_SIGNATURE ++ ((eocdrOf n size off comment).asSlice ++ comment)).length = 22 + comment.length := by
    intro n size off comment
    simp only [List.length_append, le32_length, eocdr_length]
    omega
  have hzip : ∀ a b c d, [0x50, 0x4B, 6, 6] <+: zip64EndBytes a b c d := fun _ _ _ _ => ⟨_, rfl⟩
  cases z with
  | false =>
    have hn : ¬ Forces cs := fun hf => by rw [forceRun_forces C cs hf zw, Bool.true_or] at e; cases e
    rw [unforced_of_not hn] at e'
    rw [e', ← e] at b'
    exact Or.inl (b.trans b'.symm)
  | true =>
    cases z' with
    | true => exact Or.inl (b.trans b'.symm)
    | false =>
      unfold endBytes at b b'
      rw [if_pos rfl] at b
      rw [if_neg (by decide), List.nil_append] at b'
      rw [← List.append_assoc] at b b'
      exact Or.inr ⟨_, _, _, b', b, zip64EndBytes_length _ _ _ _, hzip _ _ _ _, hstop _ _ _ _, hlen _ _ _ _⟩

theorem forceRun_append (C : Codec) (a b : List ForceCall) : ∀ zw : ZipWriter,
    (forceRun C zw (a ++ b)).2 = (forceRun C (forceRun C zw a).2 b).2 := by
  induction a with
  | nil => exact fun _ => rfl
  | cons c a ih =>
    intro zw
    cases c with
    | zip64 => exact ih _
    | noZip64 => exact ih _
    | call op => exact ih _

theorem forceRun_keeps (C : Codec) (cs : List ForceCall) (hn : ¬ Forces cs) : ∀ zw : ZipWriter, zw.forceNoZip64 = true →
    (forceRun C zw cs).2.forceNoZip64 = true ∧ (forceRun C zw cs).2.isZip64 = zw.isZip64 := by
  induction cs with
  | nil => exact fun _ h => ⟨h, rfl⟩
  | cons c cs ih =>
    intro zw h
    have hn' : ¬ Forces cs := fun hf => hn (List.mem_cons_of_mem _ hf)
    cases c with
    | zip64 => exact absurd List.mem_cons_self hn
    | noZip64 => exact ih hn' _ rfl
    | call op =>
      obtain ⟨h1, h2⟩ := ih hn' (runOp C zw op).2 ((runOp_ext C zw op).force.trans h)
      exact ⟨h1, h2.trans (runOp_keepsZ C zw op h)⟩

/-- C109. Forbidding ZIP64 in the midst of the calls does what is said of it if nothing has asked for ZIP64 by then
(`hz`) and it is not forced later: from there on no call writes a ZIP64 field that its caller did not put there, and closing
writes the classic end record directly after the directory, or fails. Missing: the same without `hz`; see `C109_late_fails`. -/
theorem C109_late_partial (C : Codec) (zw : ZipWriter) (pre post : List ForceCall)
    (hz : (forceRun C zw pre).2.isZip64 = false) (hn : ¬ Forces post) :
    (∀ a op b, post = a ++ .call op :: b → NoZip64 (userFields op) →
      ∃ x, (forceRun C zw (pre ++ .noZip64 :: (a ++ [.call op]))).2.writer.sink.bytes =
        (forceRun C zw (pre ++ .noZip64 :: a)).2.writer.sink.bytes ++ x ∧
        (x = [] ∨ ∃ (h : LocalFileHeader) (name : Bytes) (fs : List ExtraField) (extra tail : Bytes), NoZip64 fs ∧
          extraAsBytes fs = .ok extra ∧ x <+: le32 LFH_SIGNATURE ++ (h.asSlice ++ (name ++ (extra ++ tail))))) ∧
    (∀ evs sink, (forceArchive C zw (pre ++ .noZip64 :: post) evs).2.1 = .ok sink →
      ∃ zw' cd h, zw' = (forceRun C zw (pre ++ .noZip64 :: post)).2 ∧ Directory zw'.cdEntries cd ∧
        sink.bytes = zw'.writer.sink.bytes ++ (cd ++ (le32 EOCDR_SIGNATURE ++
          (EndOfCentralDirectoryHeader.asSlice h ++ commentBytes zw'.commentOpt)))) := by
  have hrun : ∀ x, (forceRun C zw (pre ++ .noZip64 :: x)).2 = (forceRun C (forceRun C zw pre).2.withForceNoZip64 x).2 :=
    fun x => forceRun_append C pre (.noZip64 :: x) zw
  constructor
  · intro a op b hp hu
    have hna : ¬ Forces a := fun hf => hn (by rw [hp]; exact List.mem_append_left _ hf)
    rw [hrun, hrun, forceRun_append]
    exact C38_local C _ op (forceRun_keeps C a hna _ rfl).1 hu
  · intro evs sink hc
    have k : (closeArchive ⟨(forceRun C zw (pre ++ .noZip64 :: post)).2, evs⟩).1 = .ok sink := hc
    obtain ⟨hf, hk⟩ := forceRun_keeps C post hn (forceRun C zw pre).2.withForceNoZip64 rfl
    have hk : _ = false := hk.trans hz
    rw [← hrun] at hf hk
    obtain ⟨cd, z, d, hoff, e, b, _⟩ :=
      closeArchive_ok (s' := (closeArchive ⟨(forceRun C zw (pre ++ .noZip64 :: post)).2, evs⟩).2) (Prod.ext k rfl)
    have hsmall : ¬ (forceRun C zw (pre ++ .noZip64 :: post)).2.writer.offset > 0xFFFFFFFF := fun h => by
      have := hoff h; rw [hf] at this; cases this
    rw [hk, decide_eq_false hsmall, Bool.false_or] at e
    rw [e, endBytes, if_neg (fun h => by cases h), List.nil_append] at b
    exact ⟨_, cd, _, rfl, d, b⟩

theorem forceRun_offset (C : Codec) (cs : List ForceCall) : ∀ zw : ZipWriter,
    zw.writer.offset ≤ (forceRun C zw cs).2.writer.offset := by
  induction cs with
  | nil => exact fun _ => Nat.le_refl _
  | cons c cs ih =>
    intro zw
    cases c with
    | zip64 => exact ih zw.withForceZip64
    | noZip64 => exact ih zw.withForceNoZip64
    | call op =>
      obtain ⟨x, _, hx⟩ := (runOp_ext C zw op).bytes
      exact Nat.le_trans (by rw [hx]; exact Nat.le_add_right _ _) (ih (runOp C zw op).2)

theorem forceRun_calls (C : Codec) (ops : List Op) : ∀ zw : ZipWriter, forceRun C zw (ops.map .call) = runOps C zw ops := by
  induction ops with
  | nil => exact fun _ => rfl
  | cons op ops ih =>
    intro zw
    simp only [List.map_cons, forceRun, runOps, ih]

/-- C109. Exactly when forbidding ZIP64 comes too late: if after calls that all went well ZIP64 is forbidden, more calls are made
and the archive is closed, it has the ZIP64 end record and locator if and only if one of the entries before was streamed or has a
size beyond 32 bits, or there were more than 65535 of them. -/
theorem C109_late_exact (C : Codec) (sink sink' : Sink) (ops : List Op) (post : List ForceCall) (evs : List Ev)
    (hfine : ∀ r ∈ (runOps C (.new sink) ops).1, Fine r) (hn : ¬ Forces post)
    (hc : (forceArchive C (.new sink) (ops.map .call ++ .noZip64 :: post) evs).2.1 = .ok sink') :
    ∃ ls front x stop, Program C ops (runOps C (.new sink) ops).1 ls ∧ sink'.bytes = front ++ (x ++ stop) ∧
      [0x50, 0x4B, 5, 6] <+: stop ∧
      stop.length = 22 + (commentBytes (forceRun C (.new sink) (ops.map .call ++ .noZip64 :: post)).2.commentOpt).length ∧
      (((∃ l ∈ ls, NeedsZip64 l) ∨ 0xFFFF < ls.length) ∧ x.length = 76 ∧ [0x50, 0x4B, 6, 6] <+: x ∨
       ¬ ((∃ l ∈ ls, NeedsZip64 l) ∨ 0xFFFF < ls.length) ∧ x = []) := by
  have hrun : (forceRun C (.new sink) (ops.map .call ++ .noZip64 :: post)).2 =
      (forceRun C (runOps C (.new sink) ops).2.withForceNoZip64 post).2 := by
    rw [forceRun_append, forceRun_calls]
    rfl
  obtain ⟨out, ps, hst, _, hprog, honly⟩ := runOps_state C False ops (.new sink) [] [] (State.new _ _ rfl rfl) (Or.inr hfine)
  have hforce : (runOps C (.new sink) ops).2.forceNoZip64 = false := runOps_force C _ ops
  have k : (closeArchive ⟨(forceRun C (.new sink) (ops.map .call ++ .noZip64 :: post)).2, evs⟩).1 = .ok sink' := hc
  obtain ⟨hf, hk⟩ := forceRun_keeps C post hn (runOps C (.new sink) ops).2.withForceNoZip64 rfl
  have hle := forceRun_offset C post (runOps C (.new sink) ops).2.withForceNoZip64
  have hk : _ = (runOps C (.new sink) ops).2.isZip64 := hk
  have hle : (runOps C (.new sink) ops).2.writer.offset ≤ _ := hle
  rw [← hrun] at hf hk hle
  obtain ⟨cd, z, _, hoff, e, b, _⟩ :=
    closeArchive_ok (s' := (closeArchive ⟨(forceRun C (.new sink) (ops.map .call ++ .noZip64 :: post)).2, evs⟩).2) (Prod.ext k rfl)
  have hsmall : ¬ (forceRun C (.new sink) (ops.map .call ++ .noZip64 :: post)).2.writer.offset > 0xFFFFFFFF := fun h => by
    have := hoff h; rw [hf] at this; cases this
  rw [hk, decide_eq_false hsmall, Bool.or_false] at e
  have hz : z = true ↔ ((∃ l ∈ ps.map Prod.fst, NeedsZip64 l) ∨ 0xFFFF < (ps.map Prod.fst).length) := by
    rw [e, List.length_map]
    constructor
    · intro h
      rcases honly hfine h with h | ⟨_, ⟨p, hp, h⟩ | h | h⟩
      · cases h
      · exact Or.inl ⟨_, List.mem_map_of_mem hp, h⟩
      · exact absurd (Nat.lt_of_lt_of_le h hle) hsmall
      · exact Or.inr h
    · rintro (⟨l, hl, h⟩ | h)
      · obtain ⟨p, hp, rfl⟩ := List.mem_map.1 hl
        exact hst.zip hforce (Or.inl ⟨p, hp, h⟩)
      · exact hst.zip hforce (Or.inr h)
  unfold endBytes at b
  rw [← List.append_assoc] at b
  refine ⟨_, _, _, _, hprog, b, ⟨_, rfl⟩, ?_, ?_⟩
  · simp only [List.length_append, le32_length, eocdr_length]
    omega
  · cases z with
    | true => exact Or.inl ⟨hz.1 rfl, zip64EndBytes_length _ _ _ _, ⟨_, rfl⟩⟩
    | false => exact Or.inr ⟨fun h => Bool.false_ne_true (hz.2 h), rfl⟩

namespace Samples

/-- An entry is streamed, and then ZIP64 forbidden. -/
def lateCalls : List ForceCall := [.call (.stream storedEntry false eager [.write [1, 2] eager] (.close eager)), .noZip64]

/-- An entry is written whole, ZIP64 forbidden, and another one streamed. -/
def timelyCalls : List ForceCall :=
  [.call (.whole storedEntry [104, 105] false eager), .noZip64,
   .call (.stream storedEntry false eager [.write [1, 2] eager] (.close eager))]

end Samples

/-- All calls and the closing succeeded, and the archive has a ZIP64 end record and locator directly before its end record of 22
bytes. -/
def endsInZip64 (r : List OpResult × Res Sink × ZipWriter) : Bool :=
  match r with
  | (_, .ok s, _) => ((s.bytes.drop (s.bytes.length - 98)).take 4 == [0x50, 0x4B, 6, 6]) &&
      ((s.bytes.drop (s.bytes.length - 42)).take 4 == [0x50, 0x4B, 6, 7]) &&
      ((s.bytes.drop (s.bytes.length - 22)).take 4 == [0x50, 0x4B, 5, 6])
  | _ => false

/-- C109 is not so without that: "Force the ZIP writer to operate in non-ZIP64 mode. If any files would need ZIP64, an error
will be raised", but an archive whose entries have already asked for ZIP64 is written with the ZIP64 structures and without
error, and so is one for which ZIP64 was forced just before it was forbidden. -/
theorem C109_late_fails :
    endsInZip64 (forceArchive Samples.markCodec Samples.fresh Samples.lateCalls Samples.eager) ∧
    endsInZip64 (forceArchive Samples.markCodec Samples.fresh [.zip64, .noZip64] Samples.eager) := by
  constructor <;> decide +kernel

/-- The bytes of an archive that could be closed. -/
def closedBytes (r : List OpResult × Res Sink × ZipWriter) : Option Bytes :=
  match r with
  | (_, .ok s, _) => some s.bytes
  | _ => none

/-- An entry is written whole and ZIP64 forced twice, in between and at last. -/
def Samples.forcedCalls : List ForceCall :=
  [.call (.whole Samples.storedEntry [104, 105] false Samples.eager), .zip64,
   .call (.whole Samples.storedEntry [5] false Samples.eager), .zip64]

/-- Both can be closed, and the archives differ. -/
example : endsInZip64 (forceArchive Samples.markCodec Samples.fresh Samples.forcedCalls Samples.eager) ∧
    (closedBytes (forceArchive Samples.markCodec Samples.fresh (unforced Samples.forcedCalls) Samples.eager)).isSome ∧
    closedBytes (forceArchive Samples.markCodec Samples.fresh Samples.forcedCalls Samples.eager) ≠
      closedBytes (forceArchive Samples.markCodec Samples.fresh (unforced Samples.forcedCalls) Samples.eager) := by
  refine ⟨?_, ?_, ?_⟩ <;> decide +kernel

example : ∃ sink sink', (forceArchive Samples.markCodec Samples.fresh Samples.forcedCalls Samples.eager).2.1 = .ok sink ∧
    (forceArchive Samples.markCodec Samples.fresh (unforced Samples.forcedCalls) Samples.eager).2.1 = .ok sink' ∧
    PlusZip64End 0 sink'.bytes sink.bytes := by
  have h1 : (closedBytes (forceArchive Samples.markCodec Samples.fresh Samples.forcedCalls Samples.eager)).isSome := by decide +kernel
  have h2 : (closedBytes (forceArchive Samples.markCodec Samples.fresh (unforced Samples.forcedCalls) Samples.eager)).isSome := by
    decide +kernel
  have h3 : closedBytes (forceArchive Samples.markCodec Samples.fresh Samples.forcedCalls Samples.eager) ≠
      closedBytes (forceArchive Samples.markCodec Samples.fresh (unforced Samples.forcedCalls) Samples.eager) := by decide +kernel
  have hall := C109_end Samples.markCodec Samples.fresh Samples.forcedCalls Samples.eager Samples.eager
  have hcom : (commentBytes (forceRun Samples.markCodec Samples.fresh Samples.forcedCalls).2.commentOpt).length = 0 := by
    decide +kernel
  rw [hcom] at hall
  generalize forceArchive Samples.markCodec Samples.fresh Samples.forcedCalls Samples.eager = r at *
  generalize forceArchive Samples.markCodec Samples.fresh (unforced Samples.forcedCalls) Samples.eager = r' at *
  obtain ⟨_, x, _⟩ := r
  obtain ⟨_, x', _⟩ := r'
  cases x with
  | error e => cases h1
  | ok sink =>
    cases x' with
    | error e => cases h2
    | ok sink' =>
      refine ⟨sink, sink', rfl, rfl, ?_⟩
      rcases hall sink sink' rfl rfl with h | h
      · exact absurd (congrArg some h) h3
      · exact h

example : Forces Samples.forcedCalls := List.mem_cons_of_mem _ List.mem_cons_self

example := C109_any_time Samples.markCodec Samples.fresh Samples.forcedCalls Samples.slow
  (List.mem_cons_of_mem _ List.mem_cons_self)

/-- In time: the archive is closed without ZIP64, although the second entry is streamed, which asks for it where it is not forbidden. -/
example : (closedBytes (forceArchive Samples.markCodec Samples.fresh Samples.timelyCalls Samples.eager)).isSome ∧
    ¬ endsInZip64 (forceArchive Samples.markCodec Samples.fresh Samples.timelyCalls Samples.eager) := by
  constructor <;> decide +kernel

example := C109_late_partial Samples.markCodec Samples.fresh [.call (.whole Samples.storedEntry [104, 105] false Samples.eager)]
  [.call (.stream Samples.storedEntry false Samples.eager [.write [1, 2] Samples.eager] (.close Samples.eager))]
  (by decide +kernel) (fun h => by rcases List.mem_cons.1 h with h | h <;> cases h)

/-- One entry was finished. -/
def oneFinished : List OpResult → Bool
  | [.whole (.ok ())] => true
  | [.stream _ _ (some (.ok ()))] => true
  | _ => false

theorem oneFinished_fine {rs : List OpResult} (h : oneFinished rs = true) : ∀ r ∈ rs, Fine r := by
  unfold oneFinished at h
  split at h
  · exact fun r hr => by rw [List.mem_singleton.1 hr]; exact Or.inl rfl
  · exact fun r hr => by rw [List.mem_singleton.1 hr]; exact Or.inl rfl
  · cases h

/-- Both sides of `C109_late_exact` occur: a streamed entry before, and an entry written whole before. -/
example : (∀ r ∈ (runOps Samples.markCodec (.new ⟨[], 0, 0⟩)
      [.stream Samples.storedEntry false Samples.eager [.write [1, 2] Samples.eager] (.close Samples.eager)]).1, Fine r) ∧
    (∀ r ∈ (runOps Samples.markCodec (.new ⟨[], 0, 0⟩) [.whole Samples.storedEntry [104, 105] false Samples.eager]).1, Fine r) ∧
    endsInZip64 (forceArchive Samples.markCodec (.new ⟨[], 0, 0⟩)
      ([.stream Samples.storedEntry false Samples.eager [.write [1, 2] Samples.eager] (.close Samples.eager)].map .call ++
        .noZip64 :: [.call (.whole Samples.storedEntry [5] false Samples.eager)]) Samples.eager) := by
  exact ⟨oneFinished_fine (by decide +kernel), oneFinished_fine (by decide +kernel), by decide +kernel⟩

end AsyncZip
