import Verif.Spec.Commenting
import Verif.Proofs.Irrelevant
import Verif.Props.Forcing
/-!
# C110: setting the comment of an archive at any time
-/

namespace AsyncZip
open Spec Wr

theorem reports_cons {C : Codec} {zw : ZipWriter} {op : Op} (h : ∀ c, op ≠ .comment c) (rs : List OpResult) :
    reports ((runOp C zw op).1 :: rs) = (runOp C zw op).1 :: reports rs := by
  have hne : (runOp C zw op).1 ≠ .comment := by
    cases op with
    | comment c => exact absurd rfl (h c)
    | whole e d pre evs => intro hx; cases hx
    | stream e pre evs acts fin =>
      unfold runOp
      simp only
      repeat' split
      all_goals exact fun hx => by cases hx
  cases hr : (runOp C zw op).1 with
  | comment => exact absurd hr hne
  | whole r => rfl
  | stream a b c => rfl

theorem sim_uncommented (C : Codec) (ops : List Op) : ∀ {zw zw' : ZipWriter}, coreW true false zw = coreW true false zw' →
    reports (runOps C zw ops).1 = (runOps C zw' (uncommented ops)).1 ∧
    coreW true false (runOps C zw ops).2 = coreW true false (runOps C zw' (uncommented ops)).2 := by
  induction ops with
  | nil => exact fun h => ⟨rfl, h⟩
  | cons op ops ih =>
    intro zw zw' h
    cases op with
    | comment c => exact ih (zw := zw.setComment c) h
    | whole e d pre evs =>
      obtain ⟨h1, h2⟩ := sim_runOp (C := C) h (Alike.refl (.whole e d pre evs))
      obtain ⟨k1, k2⟩ := ih h2
      exact ⟨(reports_cons (fun _ hx => by cases hx) _).trans (congr (congrArg List.cons h1) k1), k2⟩
    | stream e pre evs acts fin =>
      obtain ⟨h1, h2⟩ := sim_runOp (C := C) h (Alike.refl (.stream e pre evs acts fin))
      obtain ⟨k1, k2⟩ := ih h2
      exact ⟨(reports_cons (fun _ hx => by cases hx) _).trans (congr (congrArg List.cons h1) k1), k2⟩

/-- C110. Setting the comment changes nothing until the archive is closed: all other calls report what they would without it, and
the sink has been given the same bytes; whenever and however often it is set, in every state of the writer. -/
theorem C110_until_close (C : Codec) (zw : ZipWriter) (ops : List Op) :
    reports (runOps C zw ops).1 = (runOps C zw (uncommented ops)).1 ∧
    (runOps C zw ops).2.writer = (runOps C zw (uncommented ops)).2.writer := by
  obtain ⟨h1, h2⟩ := sim_uncommented C ops (Eq.refl (coreW true false zw))
  exact ⟨h1, coreW_writer h2⟩

theorem finalComment_uncommented (c : Option RString) (ops : List Op) : finalComment c (uncommented ops) = c := by
  induction ops with
  | nil => rfl
  | cons op ops ih => cases op <;> exact ih

theorem finalComment_some {ops : List Op} {c : RString} (h : finalComment none ops = some c) (d : Option RString) :
    finalComment d ops = some c := by
  induction ops generalizing d with
  | nil => cases h
  | cons op ops ih =>
    cases op with
    | comment e => exact h
    | whole _ _ _ _ => exact ih h d
    | stream _ _ _ _ _ => exact ih h d

/-- C110. Only the comment that is set last counts, and it does not matter when it is set: the calls and the closing report the
same, and the sink ends up with the same bytes, as if it had been set once, at first. -/
theorem C110_last (C : Codec) (zw : ZipWriter) (ops : List Op) (evs : List Ev) (c : RString)
    (hc : finalComment none ops = some c) :
    reports (runArchive C zw ops evs).1 = (runArchive C (zw.setComment c) (uncommented ops) evs).1 ∧
    (runArchive C zw ops evs).2.1 = (runArchive C (zw.setComment c) (uncommented ops) evs).2.1 ∧
    (runArchive C zw ops evs).2.2.writer = (runArchive C (zw.setComment c) (uncommented ops) evs).2.2.writer := by
  obtain ⟨h1, h2⟩ := sim_uncommented C ops (zw := zw) (zw' := zw.setComment c) rfl
  have hcom : (runOps C zw ops).2.commentOpt = (runOps C (zw.setComment c) (uncommented ops)).2.commentOpt := by
    rw [runOps_comment, runOps_comment, finalComment_uncommented, finalComment_some hc]
    rfl
  have h3 : coreW true true (runOps C zw ops).2 = coreW true true (runOps C (zw.setComment c) (uncommented ops)).2 :=
    coreW_mk (coreW_writer h2) (coreW_entries h2) (coreW_force h2) (coreW_zip h2) hcom
  obtain ⟨k1, k2⟩ := sim_closeArchive ⟨_, evs⟩ ⟨_, evs⟩ ⟨h3, rfl⟩
  exact ⟨h1, k1.eq, coreW_writer k2.1⟩

theorem le16_of_length (n : Nat) : le16 (UInt16.ofNat n) = [UInt8.ofNat n, UInt8.ofNat (n / 256)] := by
  show [UInt8.ofNat ((UInt16.ofNat n).toNat % 256), UInt8.ofNat ((UInt16.ofNat n).toNat / 256 % 256)] = _
  have h1 : UInt8.ofNat ((UInt16.ofNat n).toNat % 256) = UInt8.ofNat n := by
    apply UInt8.toNat_inj.1
    simp only [UInt8.toNat_ofNat', UInt16.toNat_ofNat']
    omega
  have h2 : UInt8.ofNat ((UInt16.ofNat n).toNat / 256 % 256) = UInt8.ofNat (n / 256) := by
    apply UInt8.toNat_inj.1
    simp only [UInt8.toNat_ofNat', UInt16.toNat_ofNat']
    omega
  rw [h1, h2]

/-- C110. The comment is in one place: if two programs differ only in the comments they set, and both archives can be closed, these
agree up to the last field of the end record, which says how long the comment is (on 16 bits), and after which it comes. -/
theorem C110_end (C : Codec) (zw : ZipWriter) (ops ops' : List Op) (h : uncommented ops = uncommented ops') (evs evs' : List Ev)
    (sink sink' : Sink) (hc : (runArchive C zw ops evs).2.1 = .ok sink) (hc' : (runArchive C zw ops' evs').2.1 = .ok sink') :
    CommentApart sink.bytes sink'.bytes (commentBytes (finalComment zw.commentOpt ops))
      (commentBytes (finalComment zw.commentOpt ops')) := by
  obtain ⟨_, h1⟩ := sim_uncommented C ops (Eq.refl (coreW true false zw))
  obtain ⟨_, h2⟩ := sim_uncommented C ops' (Eq.refl (coreW true false zw))
  rw [← h] at h2
  have hs := h1.trans h2.symm
  have k : (closeArchive ⟨(runOps C zw ops).2, evs⟩).1 = .ok sink := hc
  have k' : (closeArchive ⟨(runOps C zw ops').2, evs'⟩).1 = .ok sink' := hc'
  obtain ⟨cd, z, d, _, e, b, _⟩ := closeArchive_ok (s' := (closeArchive ⟨(runOps C zw ops).2, evs⟩).2) (Prod.ext k rfl)
  obtain ⟨cd', z', d', _, e', b', _⟩ := closeArchive_ok (s' := (closeArchive ⟨(runOps C zw ops').2, evs'⟩).2) (Prod.ext k' rfl)
  have hcd := directory_core d (coreW_entries hs) d'
  subst hcd
  have hzip : (runOps C zw ops).2.isZip64 = (runOps C zw ops').2.isZip64 := coreW_zip hs
  rw [← hzip, ← coreW_writer hs, ← e] at e'
  subst e'
  rw [runOps_comment] at b b'
  rw [← coreW_writer hs, ← coreW_count hs] at b'
  unfold endBytes EndOfCentralDirectoryHeader.asSlice eocdrOf at b b'
  simp only [le16_of_length] at b b'
  generalize commentBytes (finalComment zw.commentOpt ops) = c at *
  generalize commentBytes (finalComment zw.commentOpt ops') = c' at *
  simp only [List.append_assoc] at b b'
  unfold CommentApart
  generalize [UInt8.ofNat c.length, UInt8.ofNat (c.length / 256)] ++ c = x at *
  generalize [UInt8.ofNat c'.length, UInt8.ofNat (c'.length / 256)] ++ c' = x' at *
  simp only [← List.append_assoc] at b b'
  exact ⟨_, b, b'⟩

namespace Samples

/-- An entry is written between two comments, and another one streamed after them. -/
def commentedCalls : List Op :=
  [.comment ⟨[99], by decide⟩, .whole storedEntry [104, 105] false eager, .comment ⟨[100, 101], by decide⟩,
   .stream storedEntry false eager [.write [1, 2] eager] (.close eager)]

end Samples

example := C110_last Samples.markCodec Samples.fresh Samples.commentedCalls Samples.slow ⟨[100, 101], by decide⟩ rfl

/-- Both archives can be closed: with a comment of two bytes, and with none. -/
example : ∃ a b, closedBytes (runArchive Samples.markCodec Samples.fresh Samples.commentedCalls Samples.eager) = some a ∧
    closedBytes (runArchive Samples.markCodec Samples.fresh (uncommented Samples.commentedCalls) Samples.eager) = some b ∧
    CommentApart a b [100, 101] [] := by
  have h1 : (closedBytes (runArchive Samples.markCodec Samples.fresh Samples.commentedCalls Samples.eager)).isSome := by decide +kernel
  have h2 : (closedBytes (runArchive Samples.markCodec Samples.fresh (uncommented Samples.commentedCalls) Samples.eager)).isSome := by
    decide +kernel
  have hall := C110_end Samples.markCodec Samples.fresh Samples.commentedCalls (uncommented Samples.commentedCalls) rfl Samples.eager
    Samples.eager
  generalize runArchive Samples.markCodec Samples.fresh Samples.commentedCalls Samples.eager = r at *
  generalize runArchive Samples.markCodec Samples.fresh (uncommented Samples.commentedCalls) Samples.eager = r' at *
  obtain ⟨_, x, _⟩ := r
  obtain ⟨_, x', _⟩ := r'
  cases x with
  | error e => cases h1
  | ok sink =>
    cases x' with
    | error e => cases h2
    | ok sink' => exact ⟨_, _, rfl, rfl, hall sink sink' rfl rfl⟩

/-- A comment that is set has the result that `reports` leaves out, and nothing else is left out. -/
example : (runOps Samples.markCodec Samples.fresh Samples.commentedCalls).1.length = 4 ∧
    (reports (runOps Samples.markCodec Samples.fresh Samples.commentedCalls).1).length = 2 := by
  constructor <;> decide +kernel

end AsyncZip
