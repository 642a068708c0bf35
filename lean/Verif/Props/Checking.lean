import Verif.Props.Reading
/-!
# The check at the end, and asking for the checksum before it

C24.
-/

namespace AsyncZip
open Spec Rd

theorem since_last : ∀ (t : List Got) (h : UInt32) (acc : Bytes), sinceHash acc (t ++ [.hash h]) = []
  | [], _, _ => rfl
  | .read _ _ :: t, h, _ => since_last t h _
  | .hash _ :: t, h, _ => since_last t h _

/-- C24, the other direction: after any use, if what is left decodes and the checksum fits, `read_to_end_checked` succeeds with all that
was left, unless the source fails. -/
theorem C24_match_accepted (C : Codec) (m : Compression) (size chunk : Nat) (hc : 0 < chunk) (crc : UInt32)
    (s s1 : RState) (er1 : EntryReader) (t : List Got) (b : Bytes) (hu : Use C (EntryReader.new m size) s t er1 s1)
    (hd : (entryData C m s.data s.pos size).ok = true) (hb : delivered t ++ b = (entryData C m s.data s.pos size).out)
    (hx : crc32 (sinceHash [] t ++ b) = crc) :
    Interrupted (er1.readToEndChecked C chunk crc s1).1 ∨
      ∃ er2, (er1.readToEndChecked C chunk crc s1).1 = .ok (b, er2) := by
  obtain ⟨_, _, u3, u4, _⟩ := use_spec hu
  have hh := use_hasher hu [] rfl
  rw [rest_new] at u3 u4
  unfold EntryReader.readToEndChecked
  rw [bind_def]
  cases hr : er1.readToEnd C chunk s1 with
  | mk r s2 =>
    cases r with
    | ok x =>
      obtain ⟨b', er'⟩ := x
      obtain ⟨g1, g2, g3, g4, g5⟩ := readToEnd_ok hc hr
      have hbb : b' = b := by
        rw [← g1] at u3
        exact List.append_cancel_left (u3.trans hb.symm)
      subst hbb
      right
      have he : er'.computeHash.1 = crc := by
        rw [show er'.computeHash.1 = er'.hasher.finalize from rfl, g5, hh, Hasher.update_append]
        exact hx
      simp only [if_pos he]
      exact ⟨_, rfl⟩
    | error e =>
      obtain ⟨_, g⟩ := readToEnd_err hr
      rcases g with g | ⟨g1, g2⟩
      · exact Or.inl (interrupted_cast g)
      · rw [u4, hd] at g2; cases g2

/-- C24. Without a question for the checksum before it, the check is about everything that the reader ever delivered: of data that
decodes it accepts exactly what has the recorded checksum. Partial: not after a question for it (`C24_after_hash_fails`). -/
theorem C24_everything_partial (C : Codec) (m : Compression) (size chunk : Nat) (hc : 0 < chunk) (crc : UInt32)
    (s s1 : RState) (er1 : EntryReader) (t : List Got) (hu : Use C (EntryReader.new m size) s t er1 s1) (hn : NoHash t)
    (hd : (entryData C m s.data s.pos size).ok = true) :
    Interrupted (er1.readToEndChecked C chunk crc s1).1 ∨
      (crc32 (entryData C m s.data s.pos size).out = crc ∧ ∃ b er2, delivered t ++ b = (entryData C m s.data s.pos size).out ∧
        (er1.readToEndChecked C chunk crc s1).1 = .ok (b, er2)) ∨
      (crc32 (entryData C m s.data s.pos size).out ≠ crc ∧
        (er1.readToEndChecked C chunk crc s1).1 = .error (.err .crc32CheckError)) := by
  have hs : sinceHash [] t = delivered t := by rw [sinceHash_noHash hn [], List.nil_append]
  by_cases hx : crc32 (entryData C m s.data s.pos size).out = crc
  · obtain ⟨_, _, u3, _⟩ := use_spec hu
    rw [rest_new] at u3
    rcases C24_match_accepted C m size chunk hc crc s s1 er1 t _ hu hd u3 (by rw [hs, u3, hx]) with h | ⟨er2, h⟩
    · exact Or.inl h
    · exact Or.inr (Or.inl ⟨hx, _, er2, u3, h⟩)
  · rcases C24_mismatch_reported C m size chunk hc crc s s1 er1 t hu hd (fun b hb => by rw [hs, hb]; exact hx) with h | h
    · exact Or.inl h
    · exact Or.inr (Or.inr ⟨hx, h⟩)

/-- C24, strings: after any use, what `read_to_string_checked` ends with is decided by what is left of the data: it is not UTF-8, whatever
its checksum; or the checksum does not fit; or it is returned. -/
theorem C24_string_outcome (C : Codec) (m : Compression) (size chunk : Nat) (hc : 0 < chunk) (crc : UInt32)
    (s s1 : RState) (er1 : EntryReader) (t : List Got) (b : Bytes) (hu : Use C (EntryReader.new m size) s t er1 s1)
    (hd : (entryData C m s.data s.pos size).ok = true) (hb : delivered t ++ b = (entryData C m s.data s.pos size).out) :
    Interrupted (er1.readToStringChecked C chunk crc s1).1 ∨
      (utf8Valid b = false ∧ (er1.readToStringChecked C chunk crc s1).1 = .error (.err (.upstreamReadError .invalidData))) ∨
      (utf8Valid b = true ∧ crc32 (sinceHash [] t ++ b) ≠ crc ∧
        (er1.readToStringChecked C chunk crc s1).1 = .error (.err .crc32CheckError)) ∨
      (crc32 (sinceHash [] t ++ b) = crc ∧ ∃ str er2, str.bytes = b ∧
        (er1.readToStringChecked C chunk crc s1).1 = .ok (str, er2)) := by
  obtain ⟨_, _, u3, u4, _⟩ := use_spec hu
  have hh := use_hasher hu [] rfl
  rw [rest_new] at u3 u4
  unfold EntryReader.readToStringChecked
  rw [bind_def]
  cases hr : er1.readToEnd C chunk s1 with
  | mk r s2 =>
    cases r with
    | ok x =>
      obtain ⟨b', er'⟩ := x
      obtain ⟨g1, g2, g3, g4, g5⟩ := readToEnd_ok hc hr
      have hbb : b' = b := by
        rw [← g1] at u3
        exact List.append_cancel_left (u3.trans hb.symm)
      subst hbb
      right
      by_cases hv : utf8Valid b' = true
      · have he : er'.computeHash.1 = crc32 (sinceHash [] t ++ b') := by
          rw [show er'.computeHash.1 = er'.hasher.finalize from rfl, g5, hh, Hasher.update_append]
          rfl
        right
        by_cases hx : crc32 (sinceHash [] t ++ b') = crc
        · right
          refine ⟨hx, ⟨b', hv⟩, er'.computeHash.2, rfl, ?_⟩
          simp only [dif_pos hv, if_pos (he.trans hx)]
          rfl
        · left
          refine ⟨hv, hx, ?_⟩
          have hne : ¬ er'.computeHash.1 = crc := fun h => hx (he.symm.trans h)
          simp only [dif_pos hv, if_neg hne]
          rfl
      · left
        refine ⟨Bool.eq_false_iff.2 hv, ?_⟩
        simp only [dif_neg hv]
        rfl
    | error e =>
      obtain ⟨_, g⟩ := readToEnd_err hr
      rcases g with g | ⟨g1, g2⟩
      · exact Or.inl (interrupted_cast g)
      · rw [u4, hd] at g2; cases g2

/-- The two bytes of "é", with the right checksum: the string can be read, but not after the first byte was read on its own. -/
example (s : RState) (hs : s.data = [195, 169] ∧ s.pos = 0) (s1 : RState) (er1 : EntryReader)
    (hu : Use Samples.lengthCodec (EntryReader.new .stored 2) s [.read 1 [195]] er1 s1) :
    (Interrupted ((EntryReader.new .stored 2).readToStringChecked Samples.lengthCodec 9 (crc32 [195, 169]) s).1 ∨
      ∃ str er2, str.bytes = [195, 169] ∧
        ((EntryReader.new .stored 2).readToStringChecked Samples.lengthCodec 9 (crc32 [195, 169]) s).1 = .ok (str, er2)) ∧
    (Interrupted (er1.readToStringChecked Samples.lengthCodec 9 (crc32 [195, 169]) s1).1 ∨
      (er1.readToStringChecked Samples.lengthCodec 9 (crc32 [195, 169]) s1).1 = .error (.err (.upstreamReadError .invalidData))) := by
  have hd : (entryData Samples.lengthCodec .stored s.data s.pos 2).ok = true := by rw [hs.1, hs.2]; rfl
  have ho : (entryData Samples.lengthCodec .stored s.data s.pos 2).out = [195, 169] := by rw [hs.1, hs.2]; rfl
  constructor
  · rcases C24_string_outcome Samples.lengthCodec .stored 2 9 (by decide) (crc32 [195, 169]) s s _ [] [195, 169] (.refl _ _) hd
      (by rw [ho]; rfl) with h | ⟨h, _⟩ | ⟨_, h, _⟩ | ⟨_, h⟩
    · exact Or.inl h
    · exact absurd h (by decide +kernel)
    · exact absurd rfl h
    · exact Or.inr h
  · rcases C24_string_outcome Samples.lengthCodec .stored 2 9 (by decide) (crc32 [195, 169]) s s1 er1 [.read 1 [195]] [169] hu hd
      (by rw [ho]; rfl) with h | ⟨_, h⟩ | ⟨h, _⟩ | ⟨_, str, _, h, _⟩
    · exact Or.inl h
    · exact Or.inr h
    · exact absurd h (by decide +kernel)
    · have := str.valid
      rw [h] at this
      exact absurd this (by decide +kernel)

example : ∃ er1 s1, Use Samples.lengthCodec (EntryReader.new .stored 2) ⟨[195, 169], 0, none, []⟩ [.read 1 [195]] er1 s1 :=
  ⟨_, _, .read rfl (.refl _ _)⟩

/-- C24, a check after a check: whatever the first one said of which data, a second one on the same reader compares the recorded
checksum with that of no data, which is zero. So it reports damage for every entry with another checksum. -/
theorem C24_again (C : Codec) (m : Compression) (size chunk chunk' : Nat) (hc : 0 < chunk) (hc' : 0 < chunk') (crc crc' : UInt32)
    (s s1 s2 : RState) (sched : Option (List RdResp)) (er1 er2 : EntryReader) (t : List Got) (b : Bytes) (hu : Use C (EntryReader.new m size) s t er1 s1)
    (h : er1.readToEndChecked C chunk crc s1 = (.ok (b, er2), s2)) :
    Interrupted (er2.readToEndChecked C chunk' crc' { s2 with sched := sched }).1 ∨
      (crc' = 0 ∧ ∃ er3, (er2.readToEndChecked C chunk' crc' { s2 with sched := sched }).1 = .ok ([], er3)) ∨
      (crc' ≠ 0 ∧ (er2.readToEndChecked C chunk' crc' { s2 with sched := sched }).1 = .error (.err .crc32CheckError)) := by
  have h0 := h
  unfold EntryReader.readToEndChecked at h
  replace h := bind_ok_iff.1 h
  obtain ⟨⟨b', er'⟩, s4, h1, h⟩ := h
  simp only at h
  split at h
  · simp only [pure_def, Prod.mk.injEq, Except.ok.injEq] at h
    obtain ⟨⟨rfl, rfl⟩, rfl⟩ := h
    obtain ⟨_, k2, k3⟩ := C24_ok_matches C m size chunk hc crc s s1 _ er1 _ t b' hu h0
    obtain ⟨t', er5, s5, v1, v2, v3, v4⟩ := readLoop_use _ er1 [] s1 rfl _ _ h1
    have hu2 : Use C er1 s1 (t' ++ [.read chunk []]) er' s4 := Use.append v1 (.read v4 (.refl _ _))
    have hu3 := Use.append (Use.append hu hu2) (.hash (.resched sched (.refl _ _)))
    rw [List.nil_append] at v3
    have hall : delivered (t ++ (t' ++ [.read chunk []]) ++ [.hash er'.computeHash.1]) = (entryData C m s.data s.pos size).out := by
      rw [delivered_append, delivered_append, delivered_append, ← k2, v3]
      simp [delivered]
    have hzero : crc32 [] = 0 := by decide
    by_cases hz : crc' = 0
    · rcases C24_match_accepted C m size chunk' hc' crc' s _ _ _ [] hu3 k3 (by rw [hall, List.append_nil])
        (by rw [since_last, hz]; exact hzero) with h | h
      · exact Or.inl h
      · exact Or.inr (Or.inl ⟨hz, h⟩)
    · rcases C24_mismatch_reported C m size chunk' hc' crc' s _ _ _ hu3 k3 (fun b hb => by
        rw [hall] at hb
        have : b = [] := List.append_cancel_left (hb.trans (List.append_nil _).symm)
        rw [since_last, this, List.append_nil, hzero]
        exact fun h => hz h.symm) with h | h
      · exact Or.inl h
      · exact Or.inr (Or.inr ⟨hz, h⟩)
  · simp at h

theorem Samples.second_byte (h : Hasher) : (⟨.stored, 1, none, h⟩ : EntryReader).readToEnd Samples.lengthCodec 9
    ⟨[104, 105], 1, none, [.read 0 1]⟩ = (.ok ([105], ⟨.stored, 0, none, h.update [105]⟩), ⟨[104, 105], 2, none, [.read 0 1, .read 1 1]⟩) :=
  (readLoop_step rfl (by decide)).trans (readLoop_stop rfl)

theorem Samples.second_checked (h : Hasher) (crc : UInt32) :
    (⟨.stored, 1, none, h⟩ : EntryReader).readToEndChecked Samples.lengthCodec 9 crc ⟨[104, 105], 1, none, [.read 0 1]⟩ =
      (if (h.update [105]).finalize = crc then .ok ([105], ⟨.stored, 0, none, Hasher.new⟩) else .error (.err .crc32CheckError),
        ⟨[104, 105], 2, none, [.read 0 1, .read 1 1]⟩) := by
  refine (bind_of_ok (Samples.second_byte h)).trans ?_
  show (if (h.update [105]).finalize = crc then _ else _ : Rd _) _ = _
  split
  · rfl
  · rfl

/-- C24 as written does not hold after a question for the checksum. The bytes 104, 105 are delivered one by one, with a question in
between: then the check accepts the checksum of the second byte, which is not that of the two, and refuses that of the two. -/
theorem C24_after_hash_fails : ∃ (s s1 s2 : RState) (er1 er2 : EntryReader) (t : List Got) (b : Bytes),
    Use Samples.lengthCodec (EntryReader.new .stored 2) s t er1 s1 ∧ delivered t ++ b = [104, 105] ∧
    er1.readToEndChecked Samples.lengthCodec 9 (crc32 [105]) s1 = (.ok (b, er2), s2) ∧ crc32 [105] ≠ crc32 [104, 105] ∧
    (er1.readToEndChecked Samples.lengthCodec 9 (crc32 [104, 105]) s1).1 = .error (.err .crc32CheckError) := by
  refine ⟨⟨[104, 105], 0, none, []⟩, ⟨[104, 105], 1, none, [.read 0 1]⟩, ⟨[104, 105], 2, none, [.read 0 1, .read 1 1]⟩,
    ⟨.stored, 1, none, Hasher.new⟩, ⟨.stored, 0, none, Hasher.new⟩, [.read 1 [104], .hash (crc32 [104])], [105],
    .read rfl (.hash (.refl _ _)), rfl, ?_, by decide +kernel, ?_⟩
  · rw [Samples.second_checked, if_pos (by decide +kernel)]
  · rw [Samples.second_checked, if_neg (by decide +kernel)]

/-- The rest of C24 with the same two bytes, the first of which was read on its own: the check succeeds, and fails when repeated. -/
example (sched : Option (List RdResp)) : ∃ er1 s1 er2 s2,
    Use Samples.lengthCodec (EntryReader.new .stored 2) ⟨[104, 105], 0, none, []⟩ [.read 1 [104]] er1 s1 ∧
    NoHash [.read 1 [104]] ∧ (entryData Samples.lengthCodec .stored [104, 105] 0 2).ok = true ∧
    crc32 (entryData Samples.lengthCodec .stored [104, 105] 0 2).out = crc32 [104, 105] ∧
    er1.readToEndChecked Samples.lengthCodec 9 (crc32 [104, 105]) s1 = (.ok ([105], er2), s2) ∧
    (Interrupted (er2.readToEndChecked Samples.lengthCodec 9 (crc32 [104, 105]) { s2 with sched := sched }).1 ∨
      (er2.readToEndChecked Samples.lengthCodec 9 (crc32 [104, 105]) { s2 with sched := sched }).1 =
        .error (.err .crc32CheckError)) := by
  have hu : Use Samples.lengthCodec (EntryReader.new .stored 2) ⟨[104, 105], 0, none, []⟩ [.read 1 [104]]
    ⟨.stored, 1, none, Hasher.new.update [104]⟩ ⟨[104, 105], 1, none, [.read 0 1]⟩ := .read rfl (.refl _ _)
  have h2 := Samples.second_checked (Hasher.new.update [104]) (crc32 [104, 105])
  rw [if_pos (by decide +kernel)] at h2
  refine ⟨_, _, _, _, hu, by intro h; simp, rfl, rfl, h2, ?_⟩
  rcases C24_again Samples.lengthCodec .stored 2 9 9 (by decide) (by decide) (crc32 [104, 105]) (crc32 [104, 105])
    ⟨[104, 105], 0, none, []⟩ _ _ sched _ _ [.read 1 [104]] [105] hu h2 with h | ⟨h, _⟩ | ⟨_, h⟩
  · exact Or.inl h
  · exact absurd h (by decide +kernel)
  · exact Or.inr h

end AsyncZip
