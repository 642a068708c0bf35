import Verif.Spec.Visits
import Verif.Proofs.RoundTrip
import Verif.Proofs.Local
import Verif.Props.Streaming
/-!
# The streaming reader on a written archive
-/

namespace AsyncZip
open Spec Rd

/-- What the fields of a local header mean to the reader. -/
theorem LocalHeader.decodes {force : Bool} {l : Listing} {c : CdEntry} {h : LocalFileHeader} {fs : List ExtraField}
    (hl : LocalHeader force l c h fs) (hown : ∀ f ∈ l.entry.extraFields, OwnField f) :
    (∀ f ∈ fs, WellFormed h.uncompressedSize h.compressedSize f) ∧
    paths fs = paths (withUnicode l.entry l.entry.extraFields) ∧
    (∀ z, .zip64 z ∈ fs → ¬ EmptyContent (.zip64 z)) ∧
    (l.streamed = false →
      getCombinedSizes h.uncompressedSize h.compressedSize (getZip64ExtraField fs) = (l.us, l.cs)) := by
  have hno := own_noZip64 hown
  have hn : extraCountBytes fs < 2 ^ 16 := by
    rw [← hl.extraLen]
    exact UInt16.toNat_lt _
  have plain : fs = withUnicode l.entry l.entry.extraFields →
      (∀ f ∈ fs, WellFormed h.uncompressedSize h.compressedSize f) ∧
      paths fs = paths (withUnicode l.entry l.entry.extraFields) ∧
      (∀ z, .zip64 z ∈ fs → ¬ EmptyContent (.zip64 z)) := by
    rintro rfl
    exact ⟨withUnicode_wf (fun f hf => OwnField.wf (hown f hf) _ _) hn, rfl,
      fun z hz => absurd rfl (noZip64_withUnicode hno _ hz z)⟩
  have zip : ∀ (a b : UInt64) o, fs = withUnicode l.entry (l.entry.extraFields ++ [zip64Of (some a) (some b) o]) →
      h.uncompressedSize = 0xFFFFFFFF → h.compressedSize = 0xFFFFFFFF →
      (∀ f ∈ fs, WellFormed h.uncompressedSize h.compressedSize f) ∧
      paths fs = paths (withUnicode l.entry l.entry.extraFields) ∧
      (∀ z, .zip64 z ∈ fs → ¬ EmptyContent (.zip64 z)) := by
    rintro a b o rfl h1 h2
    refine ⟨withUnicode_wf (fun f hf => ?_) hn, ?_, fun z hz => (zip64_members (own_noZip64 hown) (by simp [zip64Of, EmptyContent]) z hz).2⟩
    · rcases List.mem_append.1 hf with hf | hf
      · exact OwnField.wf (hown f hf) _ _
      · rw [List.mem_singleton.1 hf, h1, h2]
        simp [zip64Of, WellFormed, ID_ZIP64]
    · rw [paths_withUnicode, paths_withUnicode, paths_zip64]
  cases hs : l.streamed with
  | false =>
    obtain ⟨_, ⟨g1, g2, g3, g4, g5⟩ | ⟨o, _, g3, g4, _, g5⟩⟩ := hl.whole hs
    · obtain ⟨k1, k2, k3⟩ := plain g5
      refine ⟨k1, k2, k3, fun _ => ?_⟩
      rw [g5, zip64_withUnicode, zip64_none hno, g3, g4]
      simp only [getCombinedSizes, toUInt32_toUInt64 g1, toUInt32_toUInt64 g2]
    · obtain ⟨k1, k2, k3⟩ := zip _ _ _ g5 g3 g4
      refine ⟨k1, k2, k3, fun _ => ?_⟩
      rw [g5, zip64_withUnicode, zip64_own _ _ _ _ hno, g3, g4]
      rfl
  | true =>
    obtain ⟨_, g1, g2⟩ := hl.stream hs
    cases force with
    | true =>
      obtain ⟨k1, k2, k3⟩ := plain g2
      exact ⟨k1, k2, k3, fun h => by cases h⟩
    | false =>
      simp only [streamHeaderSizes, Bool.false_eq_true, if_false, Prod.mk.injEq] at g1
      obtain ⟨k1, k2, k3⟩ := zip _ _ _ g2 g1.2 g1.1
      exact ⟨k1, k2, k3, fun h => by cases h⟩

/-- The entry the streaming reader makes of a recorded one. -/
theorem LocalHeader.outcome {b : Build} {force : Bool} {off : Nat} {l : Listing} {c : CdEntry} {h : LocalFileHeader}
    {fs : List ExtraField} {xb : Bytes} (hl : LocalHeader force l c h fs) (d : AsyncZip.Describes force off l c)
    (hown : ∀ f ∈ l.entry.extraFields, OwnField f) (hx : extraAsBytes fs = .ok xb)
    (hns : l.streamed = true → l.entry.compression ≠ .stored) :
    ∃ e, lfhOutcome b h l.entry.filename.basic xb = .ok (some e) ∧ NextAs l e ∧ e.filename = nameRead l.entry := by
  obtain ⟨wf, hp, hz, hsz⟩ := hl.decodes hown
  have hfl := hl.flags.trans d.flags
  have hm : Compression.tryFrom h.compression = .ok l.entry.compression := by
    rw [hl.method, d.method, tryFrom_toU16]
  refine ⟨lfhEntryOf h l.entry.filename.basic l.entry.compression (trim fs), ?_, ?_, ?_⟩
  · unfold lfhOutcome
    rw [hm, parse_trim wf hx, hfl]
    simp only [bind, Except.bind]
    rw [if_neg, if_neg (by simp)]
    rw [Bool.and_eq_true, beq_iff_eq]
    exact fun hh => hns hh.1 hh.2
  · refine ⟨basic_filename _ _ _, rfl, ?_, ?_, fun hs => (hl.whole hs).1, fun hs => (hl.stream hs).1, fun hs => ?_,
      fun hs => ?_⟩
    · simp only [lfhEntryOf, hl.time, hl.date, d.time, d.date]
    · simp only [lfhEntryOf, hfl]
    · simp only [lfhEntryOf, zip64_trim hz, hsz hs]
    · simp only [lfhEntryOf, zip64_trim hz, hsz hs]
  · simp only [lfhEntryOf, hfl, nameRead, detectFilename]
    rw [path_trim, ← find_paths, hp, find_paths]

theorem tail_length (force : Bool) (l : Listing) : (tailBytes force l).length = if l.streamed then 16 else 0 := by
  unfold tailBytes
  cases l.streamed <;> cases force <;> rfl

theorem tail_sig {force : Bool} {l : Listing} (h : l.streamed = true) : ∃ t, tailBytes force l = sigDescriptor ++ t := by
  unfold tailBytes
  rw [if_pos h]
  split
  · exact ⟨_, by rw [descriptorBytes, descriptorSig]⟩
  · exact ⟨_, by rw [descriptorBytes, descriptorSig]⟩

/-- The next entry of a written archive. -/
theorem Good.next {b : Build} {force : Bool} {off : Nat} {x a rest : Bytes} {l : Listing} {c : CdEntry} {data : Bytes}
    (g : Good force off x l c) (hown : ∀ f ∈ l.entry.extraFields, OwnField f) (hd : data = a ++ (x ++ rest))
    (ha : a.length = off) (hns : l.streamed = true → l.entry.compression ≠ .stored) :
    ∃ e start, Runs (streamNext b) data off (.ok (some ⟨EntryReader.new e.compression
        (if e.dataDescriptor then 2 ^ 64 - 1 else e.compressedSize.toNat), e, e.dataDescriptor⟩)) start ∧
      NextAs l e ∧ e.filename = nameRead l.entry ∧ data.drop start = l.stored ++ (tailBytes force l ++ rest) ∧
      start + l.stored.length + (tailBytes force l).length = off + x.length := by
  obtain ⟨h, fs, extra, hl, hx, hbytes⟩ := g.bytes
  have hlen := extraAsBytes_length hx
  rw [local_disk hl (own_noZip64 hown)] at hlen
  have h0 : data.drop off = le32 LFH_SIGNATURE ++ (h.asSlice ++ (l.entry.filename.basic ++ (extra ++ (l.stored ++
      (tailBytes force l ++ rest))))) := by
    rw [hd, List.drop_append_of_le_length (Nat.le_of_eq ha.symm), ← ha, List.drop_length, List.nil_append, hbytes, localBytes]
    simp only [List.append_assoc]
  have h1 := drop_append_of_drop h0 (le32_length _)
  have h2 := drop_append_of_drop h1 (lfh_length h)
  have h3 := drop_append_of_drop h2 hl.nameLen.symm
  have h4 := drop_append_of_drop (n := h.extraFieldLength.toNat) h3 (by rw [hl.extraLen]; omega)
  obtain ⟨e, ho, hna, hnm⟩ := hl.outcome (b := b) g.describes hown hx hns
  have hob := lfh_ofBytes_asSlice h
  obtain ⟨pos', hr, hp⟩ := Runs.lfhAt (b := b) (data := data) (pos := off) (hb := h.asSlice) (name := l.entry.filename.basic)
    (xb := extra) (take_of_drop h0 (le32_length _)) (take_of_drop h1 (lfh_length h)) (lfh_length h)
    (by rw [hob]; exact take_of_drop h2 hl.nameLen.symm)
    (by rw [hob, show off + 30 + l.entry.filename.basic.length = off + 4 + 26 + h.fileNameLength.toNat by
          rw [hl.nameLen]]; exact take_of_drop h3 (by rw [hl.extraLen]; omega))
  rw [hob, ho] at hr hp
  have hp := hp _ rfl
  have hn := hl.nameLen
  have he := hl.extraLen
  refine ⟨e, pos', Runs.bind hr Runs.pure, hna, hnm, ?_, ?_⟩
  · rw [← h4, hp]
    congr 1
    omega
  · rw [hp, hbytes]
    simp only [localBytes, List.length_append, lfh_length, le32_length]
    omega

/-- The call was interrupted, or succeeded as `P` says. -/
def Does {α : Type} (m : Rd α) (s : RState) (P : α → RState → Prop) : Prop :=
  Interrupted (m s).1 ∨ ∃ a s', m s = (.ok a, s') ∧ P a s'

theorem Does.bind {α β : Type} {m : Rd α} {f : α → Rd β} {s : RState} {P : α → RState → Prop} {Q : β → RState → Prop}
    (h : Does m s P) (k : ∀ a s', P a s' → Does (f a) s' Q) : Does (m >>= f) s Q := by
  rcases h with h | ⟨a, s', h1, h2⟩
  · left
    cases hr : m s with
    | mk r s1 =>
      rw [hr] at h
      cases r with
      | ok u => exact absurd h not_interrupted_ok
      | error y => rw [bind_of_error hr]; exact interrupted_cast h
  · unfold Does
    rw [bind_of_ok h1]
    exact k a s' h2

theorem Does.pure {α : Type} {a : α} {s : RState} {P : α → RState → Prop} (h : P a s) : Does (pure a : Rd α) s P :=
  Or.inr ⟨a, s, rfl, h⟩

theorem Does.of_runs {α : Type} {m : Rd α} (hc : ChunkIndep m) {data : Bytes} {pos pos' : Nat} {a : α}
    (h : Runs m data pos (.ok a) pos') {s : RState} (hd : s.data = data) (hp : s.pos = pos) :
    Does m s fun x s' => x = a ∧ s'.data = data ∧ s'.pos = pos' := by
  rcases h.of_chunkIndep hc s hd hp with h | ⟨h1, h2, h3⟩
  · exact Or.inl h
  · exact Or.inr ⟨a, (m s).2, Prod.ext h1 rfl, rfl, h2, h3⟩

theorem Does.mono {α : Type} {m : Rd α} {s : RState} {P Q : α → RState → Prop} (h : Does m s P)
    (hq : ∀ a s', P a s' → Q a s') : Does m s Q :=
  h.imp id fun ⟨a, s', h1, h2⟩ => ⟨a, s', h1, hq a s' h2⟩

theorem Does.readToEnd {C : Codec} {chunk : Nat} (hc : 0 < chunk) {er : EntryReader} {s : RState} {d : Bytes} {k : Nat}
    (h : er.rest C s = ⟨d, k, true⟩) :
    Does (er.readToEnd C chunk) s fun x s' => x.1 = d ∧ s'.data = s.data ∧ s'.pos = s.pos + k ∧
      x.2.rest C s' = ⟨[], 0, true⟩ := by
  cases hr : er.readToEnd C chunk s with
  | mk r s2 =>
    cases r with
    | ok x =>
      right
      refine ⟨x, s2, hr, ?_⟩
      obtain ⟨g1, _, g3, g4, _⟩ := readToEnd_ok (b := x.1) (er' := x.2) hc hr
      obtain ⟨t, er1, s1, hu, hn, hb, hl⟩ := readLoop_use _ er [] s rfl _ _ hr
      obtain ⟨u1, u2, u3, u4, u5⟩ := use_spec hu
      obtain ⟨r1, r2, r3, _, r4, r5, r6, r7⟩ := read_ok hl
      obtain ⟨r8, r9, r10⟩ := r7 hc rfl
      rw [h] at g1 g3
      refine ⟨g1, g4, g3, ?_⟩
      have e1 : (x.2.rest C s2).out = [] := by rw [List.nil_append] at r4; rw [r4, r8]
      have e2 : (x.2.rest C s2).ok = true := r5.trans r9
      have e3 : (x.2.rest C s2).used = 0 := by omega
      cases hz : x.2.rest C s2 with
      | mk o u k =>
        rw [hz] at e1 e2 e3
        simp only at e1 e2 e3
        rw [e1, e2, e3]
    | error e =>
      left
      rw [hr]
      obtain ⟨_, g⟩ := readToEnd_err hr
      rcases g with g | ⟨_, g2⟩
      · exact interrupted_cast g
      · rw [h] at g2; cases g2

theorem readUpTo_use {C : Codec} {chunk : Nat} (hc : 0 < chunk) : ∀ (fuel n : Nat) (er : EntryReader) (s : RState), n ≤ fuel →
    ∀ r s', readUpTo C chunk fuel n er s = (r, s') →
    match r with
    | .ok (d, er') => ∃ t, Use C er s t er' s' ∧ delivered t = d ∧ d.length ≤ n ∧
        (d.length = n ∨ (er'.rest C s').out = [] ∧ (er.rest C s).ok = true)
    | .error e => ∃ t er1 s1, Use C er s t er1 s1 ∧ (delivered t).length < n ∧
        er1.read C (min chunk (n - (delivered t).length)) s1 = (.error e, s')
  | 0, n, er, s, hn, r, s', h => by
    simp only [readUpTo, pure_def, Prod.mk.injEq] at h
    obtain ⟨rfl, rfl⟩ := h
    exact ⟨[], .refl _ _, rfl, Nat.zero_le _, Or.inl (by simp only [List.length_nil]; omega)⟩
  | fuel + 1, n, er, s, hn, r, s', h => by
    unfold readUpTo at h
    by_cases h0 : n = 0
    · rw [if_pos h0] at h
      simp only [pure_def, Prod.mk.injEq] at h
      obtain ⟨rfl, rfl⟩ := h
      exact ⟨[], .refl _ _, rfl, Nat.zero_le _, Or.inl h0.symm⟩
    rw [if_neg h0] at h
    cases hr : er.read C (min chunk n) s with
    | mk x s1 =>
      cases x with
      | error e =>
        rw [bind_of_error hr] at h
        simp only [Prod.mk.injEq] at h
        obtain ⟨rfl, rfl⟩ := h
        exact ⟨[], er, s, .refl _ _, by simp only [delivered, List.length_nil]; omega, hr⟩
      | ok x =>
        obtain ⟨b, er1⟩ := x
        obtain ⟨r1, _, _, r3, r4, r5, r6, r7⟩ := read_ok hr
        rw [bind_of_ok hr] at h
        by_cases hb : b = []
        · subst hb
          simp only [if_true, pure_def, Prod.mk.injEq] at h
          obtain ⟨rfl, rfl⟩ := h
          obtain ⟨k1, k2, k3⟩ := r7 (by omega) rfl
          refine ⟨[.read (min chunk n) []], .read hr (.refl _ _), rfl, Nat.zero_le _, Or.inr ⟨?_, k2⟩⟩
          rw [List.nil_append, k1] at r4
          exact r4
        · simp only [if_neg hb] at h
          have hl := List.length_pos_iff.2 hb
          cases hy : readUpTo C chunk fuel (n - b.length) er1 s1 with
          | mk y s2 =>
            have ih := readUpTo_use hc fuel (n - b.length) er1 s1 (by omega) y s2 hy
            cases y with
            | error e =>
              rw [bind_of_error hy] at h
              simp only [Prod.mk.injEq] at h
              obtain ⟨rfl, rfl⟩ := h
              obtain ⟨t, er2, s3, h1, h2, h3⟩ := ih
              refine ⟨.read (min chunk n) b :: t, er2, s3, .read hr h1, ?_, ?_⟩
              · rw [delivered, List.length_append]; omega
              · rw [delivered, List.length_append, ← Nat.sub_sub]; exact h3
            | ok y =>
              rw [bind_of_ok hy] at h
              simp only [pure_def, Prod.mk.injEq] at h
              obtain ⟨rfl, rfl⟩ := h
              obtain ⟨t, h1, h2, h3, h4⟩ := ih
              refine ⟨.read (min chunk n) b :: t, .read hr h1, by rw [delivered, h2], ?_, ?_⟩
              · rw [List.length_append]; omega
              · rw [List.length_append]
                rcases h4 with h4 | ⟨h4, h5⟩
                · exact Or.inl (by omega)
                · exact Or.inr ⟨h4, r5 ▸ h5⟩

/-- What is left in the reader decides what reading up to `n` bytes gives. -/
theorem readUpTo_ok {C : Codec} {chunk : Nat} (hc : 0 < chunk) {fuel n : Nat} (hn : n ≤ fuel) {er er' : EntryReader}
    {s s' : RState} {d : Bytes} (h : readUpTo C chunk fuel n er s = (.ok (d, er'), s')) :
    s'.data = s.data ∧ d = (er.rest C s).out.take n ∧ (er'.rest C s').out = (er.rest C s).out.drop n ∧
      (er'.rest C s').ok = (er.rest C s).ok ∧ s'.pos + (er'.rest C s').used = s.pos + (er.rest C s).used ∧
      (n ≤ (er.rest C s).out.length ∨ (er.rest C s).ok = true) := by
  obtain ⟨t, hu, h1, h2, h3⟩ := readUpTo_use hc fuel n er s hn _ _ h
  obtain ⟨u1, _, u2, u3, u4⟩ := use_spec hu
  rw [h1] at u2
  refine ⟨u1, ?_, ?_, u3, u4, ?_⟩
  · rw [← u2]
    rcases h3 with h3 | ⟨h3, _⟩
    · rw [← h3, List.take_left]
    · rw [h3, List.append_nil, List.take_of_length_le h2]
  · rw [← u2]
    rcases h3 with h3 | ⟨h3, _⟩
    · rw [← h3, List.drop_left]
    · rw [h3, List.append_nil, List.drop_eq_nil_of_le h2]
  · rw [← u2, List.length_append]
    rcases h3 with h3 | ⟨_, h3⟩
    · exact Or.inl (by omega)
    · exact Or.inr h3

theorem readUpTo_err {C : Codec} {chunk : Nat} (hc : 0 < chunk) {fuel n : Nat} (hn : n ≤ fuel) {er : EntryReader}
    {s s' : RState} {e : Fail} (h : readUpTo C chunk fuel n er s = (.error e, s')) :
    Interrupted (.error e : Res Bytes) ∨ (e = .err (.upstreamReadError .invalidData) ∧ (er.rest C s).out.length < n ∧
      (er.rest C s).ok = false) := by
  obtain ⟨t, er1, s1, hu, h1, h2⟩ := readUpTo_use hc fuel n er s hn _ _ h
  obtain ⟨u1, _, u2, u3, u4⟩ := use_spec hu
  obtain ⟨_, _, g | ⟨g1, g2, g3⟩⟩ := read_err h2
  · exact Or.inl g
  · rw [g2, List.append_nil] at u2
    exact Or.inr ⟨g1, by rw [← u2]; exact h1, u3 ▸ g3⟩

theorem Does.readUpTo {C : Codec} {chunk : Nat} (hc : 0 < chunk) {fuel n : Nat} (hn : n ≤ fuel) {er : EntryReader} {s : RState}
    {d : Bytes} {k : Nat} (h : er.rest C s = ⟨d, k, true⟩) :
    Does (Spec.readUpTo C chunk fuel n er) s fun x s' => x.1 = d.take n ∧ s'.data = s.data ∧ ∃ u, s'.pos + u = s.pos + k ∧
      x.2.rest C s' = ⟨d.drop n, u, true⟩ := by
  cases hr : Spec.readUpTo C chunk fuel n er s with
  | mk r s2 =>
    cases r with
    | ok x =>
      obtain ⟨h1, h2, h3, h4, h5, _⟩ := readUpTo_ok (d := x.1) (er' := x.2) hc hn hr
      rw [h] at h2 h3 h4 h5
      exact Or.inr ⟨x, s2, hr, h2, h1, (x.2.rest C s2).used, h5, by
        rw [← h3]
        cases hz : x.2.rest C s2 with
        | mk o u k => rw [hz] at h4; exact congrArg _ h4⟩
    | error e =>
      left
      rw [hr]
      rcases readUpTo_err hc hn hr with g | ⟨_, _, g⟩
      · exact interrupted_cast g
      · rw [h] at g; cases g

theorem Does.readToEndChecked {C : Codec} {chunk : Nat} (hc : 0 < chunk) {er : EntryReader} (hh : er.hasher = Hasher.new)
    {s : RState} {d : Bytes} {k : Nat} (h : er.rest C s = ⟨d, k, true⟩) {crc : UInt32} (hcrc : crc = crc32 d) :
    Does (er.readToEndChecked C chunk crc) s fun x s' => x.1 = d ∧ s'.data = s.data ∧ s'.pos = s.pos + k ∧
      x.2.rest C s' = ⟨[], 0, true⟩ := by
  rcases Does.readToEnd hc h with g | ⟨x, s1, g, g1, g2, g3, g4⟩
  · left
    unfold EntryReader.readToEndChecked
    cases hr : er.readToEnd C chunk s with
    | mk r s1 =>
      rw [hr] at g
      cases r with
      | ok u => exact absurd g not_interrupted_ok
      | error y => rw [bind_of_error hr]; exact interrupted_cast g
  · right
    obtain ⟨_, _, _, _, u⟩ := readToEnd_ok (b := x.1) (er' := x.2) hc g
    have e1 : x.2.computeHash.1 = crc := by
      rw [show x.2.computeHash.1 = x.2.hasher.finalize from rfl, u, hh, g1, hcrc]
      rfl
    refine ⟨(x.1, x.2.computeHash.2), s1, ?_, g1, g2, g3, g4⟩
    unfold EntryReader.readToEndChecked
    rw [bind_of_ok g]
    simp only [if_pos e1]
    rfl

theorem readToEndChecked_refuses {C : Codec} {chunk : Nat} (hc : 0 < chunk) {er : EntryReader} (hh : er.hasher = Hasher.new)
    {s : RState} {d : Bytes} {k : Nat} (h : er.rest C s = ⟨d, k, true⟩) {crc : UInt32} (hcrc : crc ≠ crc32 d) :
    Interrupted (er.readToEndChecked C chunk crc s).1 ∨
      ∃ s', er.readToEndChecked C chunk crc s = (.error (.err .crc32CheckError), s') := by
  rcases Does.readToEnd hc h with g | ⟨x, s1, g, g1, g2, g3, g4⟩
  · left
    unfold EntryReader.readToEndChecked
    cases hr : er.readToEnd C chunk s with
    | mk r s1 =>
      rw [hr] at g
      cases r with
      | ok u => exact absurd g not_interrupted_ok
      | error y => rw [bind_of_error hr]; exact interrupted_cast g
  · right
    obtain ⟨_, _, _, _, u⟩ := readToEnd_ok (b := x.1) (er' := x.2) hc g
    have e1 : ¬ x.2.computeHash.1 = crc := by
      rw [show x.2.computeHash.1 = x.2.hasher.finalize from rfl, u, hh, g1]
      exact fun h => hcrc h.symm
    refine ⟨s1, ?_⟩
    unfold EntryReader.readToEndChecked
    rw [bind_of_ok g]
    simp only [if_neg e1]
    rfl

theorem Does.readNothing {C : Codec} {er : EntryReader} {s : RState} (h : er.rest C s = ⟨[], 0, true⟩) :
    Does (er.read C 1) s fun x s' => x.1 = [] ∧ s'.data = s.data ∧ s'.pos = s.pos := by
  cases hr : er.read C 1 s with
  | mk r s2 =>
    cases r with
    | ok x =>
      right
      refine ⟨x, s2, hr, ?_⟩
      obtain ⟨r1, _, _, _, r4, _, _, r7⟩ := read_ok (b := x.1) (er' := x.2) hr
      rw [h] at r4 r7
      have h1 := (List.append_eq_nil_iff.1 r4).1
      exact ⟨h1, r1, by have := (r7 (by omega) h1).2.2; omega⟩
    | error e =>
      left
      rw [hr]
      obtain ⟨_, _, g⟩ := read_err hr
      rcases g with g | ⟨_, _, g2⟩
      · exact interrupted_cast g
      · rw [h] at g2; cases g2

theorem Does.descriptor {data rest t : Bytes} {s : RState} {dd : Bool} (hd : s.data = data)
    (hdrop : data.drop s.pos = t ++ rest) (hlen : t.length = if dd then 16 else 0)
    (hsig : dd = true → ∃ u, t = sigDescriptor ++ u) :
    Does (if dd then consumeDataDescriptor else Pure.pure ()) s fun _ s' => s'.data = data ∧ s'.pos = s.pos + t.length := by
  cases dd with
  | false =>
    simp only [Bool.false_eq_true, if_false] at hlen ⊢
    exact Does.pure ⟨hd, by omega⟩
  | true =>
    simp only [if_true] at hlen ⊢
    obtain ⟨u, rfl⟩ := hsig rfl
    have ho : OccursAt data sigDescriptor s.pos := by
      unfold OccursAt
      rw [List.append_assoc] at hdrop
      exact take_of_drop hdrop rfl
    have hdl : descriptorLength data s.pos = 16 := by
      unfold descriptorLength
      rw [if_pos ho]
    have hfit : s.pos + descriptorLength data s.pos ≤ data.length := by
      have := congrArg List.length hdrop
      rw [List.length_drop, List.length_append, hlen] at this
      omega
    have hr := Runs.consumeDataDescriptor hfit
    exact (Does.of_runs consumeDataDescriptor_chunkIndep hr hd rfl).mono fun _ s' h => ⟨h.2.1, by rw [h.2.2, hdl, hlen]⟩

/-- Visiting an entry, from what its reader will yield and where what follows it ends. -/
theorem visit_does {C : Codec} {b : Build} {data d : Bytes} {off start n stop : Nat} {e : ZipEntry}
    (hrun : Runs (streamNext b) data off (.ok (some ⟨EntryReader.new e.compression
      (if e.dataDescriptor then 2 ^ 64 - 1 else e.compressedSize.toNat), e, e.dataDescriptor⟩)) start)
    (hdata : entryData C e.compression data start (if e.dataDescriptor then 2 ^ 64 - 1 else e.compressedSize.toNat)
      = ⟨d, n, true⟩)
    (tail : ∀ s1 : RState, s1.data = data → s1.pos = start + n →
      Does (if e.dataDescriptor then consumeDataDescriptor else Pure.pure ()) s1 fun _ s' =>
        s'.data = data ∧ s'.pos = stop) :
    (∀ (v : Visit), v.Buffered → v.Confirms e d →
      ∀ s : RState, s.data = data → s.pos = off → Does (Spec.visit C b v) s fun y s' =>
        y = some (e, v.sees d) ∧ s'.data = data ∧ s'.pos = stop) ∧
      ∀ k, 0 < k → e.crc32 ≠ crc32 d → ∀ s : RState, s.data = data → s.pos = off →
        Interrupted (Spec.visit C b (.check k) s).1 ∨ (Spec.visit C b (.check k) s).1 = .error (.err .crc32CheckError) := by
  have hrest : ∀ s1 : RState, s1.data = data → s1.pos = start →
      (EntryReader.new e.compression (if e.dataDescriptor then 2 ^ 64 - 1 else e.compressedSize.toNat)).rest C s1
      = ⟨d, n, true⟩ := by
    intro s1 h2 h3
    rw [rest_new, h2, h3]
    exact hdata
  refine ⟨fun v hv hcf s hs hp => ?_, fun k hk hne s hs hp => ?_⟩
  rotate_left
  · rcases Does.of_runs (streamNext_chunkIndep b) hrun hs hp with h | ⟨r, s1, h1, rfl, h2, h3⟩
    · left
      cases hr : streamNext b s with
      | mk r s1 =>
        rw [hr] at h
        cases r with
        | ok u => exact absurd h not_interrupted_ok
        | error y => unfold Spec.visit; rw [bind_of_error hr]; exact interrupted_cast h
    · unfold Spec.visit
      rw [bind_of_ok h1]
      simp only
      rcases readToEndChecked_refuses hk rfl (hrest s1 h2 h3) hne with h | ⟨s2, h⟩
      · left
        cases hr : (EntryReader.new e.compression (if e.dataDescriptor then 2 ^ 64 - 1 else e.compressedSize.toNat)).readToEndChecked
            C k e.crc32 s1 with
        | mk r s2 =>
          rw [hr] at h
          cases r with
          | ok u => exact absurd h not_interrupted_ok
          | error y => rw [bind_of_error hr]; exact interrupted_cast h
      · right
        rw [bind_of_error h]
  unfold Spec.visit
  refine Does.bind (Does.of_runs (streamNext_chunkIndep b) hrun hs hp) fun r s1 h1 => ?_
  obtain ⟨rfl, h2, h3⟩ := h1
  have hrest := hrest s1 h2 h3
  cases v with
  | skip =>
    simp only [Reading.skip]
    refine Does.bind (Does.bind (Does.readToEnd (by omega) hrest) fun y s2 h4 => ?_) fun _ s3 h5 => Does.pure ⟨rfl, h5⟩
    exact tail s2 (h4.2.1.trans h2) (by rw [h4.2.2.1, h3])
  | read k =>
    simp only []
    refine Does.bind (Does.readToEnd (show 0 < k from hv) hrest) fun y s2 h4 => ?_
    obtain ⟨y1, er⟩ := y
    obtain ⟨g1, g2, g3, g4⟩ := h4
    simp only at g1 g4
    subst g1
    simp only [Reading.done]
    refine Does.bind (Does.bind (Does.readNothing g4) fun z s3 h5 => ?_) fun _ s3 h5 => Does.pure ⟨rfl, h5⟩
    obtain ⟨z1, er2⟩ := z
    obtain ⟨k1, k2, k3⟩ := h5
    simp only at k1
    subst k1
    simp only [List.length_nil, ne_eq, not_true_eq_false, if_false]
    exact tail s3 (k2.trans (g2.trans h2)) (by rw [k3, g3, h3])
  | check k =>
    simp only []
    refine Does.bind (Does.readToEndChecked (show 0 < k from hv) rfl hrest (hcf k rfl)) fun y s2 h4 => ?_
    obtain ⟨y1, er⟩ := y
    obtain ⟨g1, g2, g3, g4⟩ := h4
    simp only at g1 g4
    subst g1
    simp only [Reading.done]
    refine Does.bind (Does.bind (Does.readNothing g4) fun z s3 h5 => ?_) fun _ s3 h5 => Does.pure ⟨rfl, h5⟩
    obtain ⟨z1, er2⟩ := z
    obtain ⟨k1, k2, k3⟩ := h5
    simp only at k1
    subst k1
    simp only [List.length_nil, ne_eq, not_true_eq_false, if_false]
    exact tail s3 (k2.trans (g2.trans h2)) (by rw [k3, g3, h3])
  | part m k =>
    simp only []
    refine Does.bind (Does.readUpTo (show 0 < k from hv) (Nat.le_refl m) hrest) fun y s2 h4 => ?_
    obtain ⟨y1, er⟩ := y
    obtain ⟨g1, g2, u, g3, g4⟩ := h4
    simp only at g1 g4
    subst g1
    simp only [Reading.skip]
    refine Does.bind (Does.bind (Does.readToEnd (by omega) g4) fun z s3 h5 => ?_) fun _ s3 h5 => Does.pure ⟨rfl, h5⟩
    exact tail s3 (h5.2.1.trans (g2.trans h2)) (by rw [h5.2.2.1, g3, h3])

/-- Visiting the next entry of a written archive. -/
theorem Good.visit {C : Codec} {b : Build} {force : Bool} {off : Nat} {x a rest d : Bytes} {l : Listing} {c : CdEntry}
    {data : Bytes} (g : Good force off x l c) (hown : ∀ f ∈ l.entry.extraFields, OwnField f) (hd : data = a ++ (x ++ rest))
    (ha : a.length = off) (hns : l.streamed = true → l.entry.compression ≠ .stored) (hlen : data.length < 2 ^ 64)
    (hh : Holds C l d) :
    ∃ e, NextAs l e ∧ e.filename = nameRead l.entry ∧ (∀ (v : Visit), v.Buffered → v.Confirms e d →
      ∀ s : RState, s.data = data → s.pos = off → Does (Spec.visit C b v) s fun y s' =>
        y = some (e, v.sees d) ∧ s'.data = data ∧ s'.pos = off + x.length) ∧
      ∀ k, 0 < k → e.crc32 ≠ crc32 d → ∀ s : RState, s.data = data → s.pos = off →
        Interrupted (Spec.visit C b (.check k) s).1 ∨ (Spec.visit C b (.check k) s).1 = .error (.err .crc32CheckError) := by
  obtain ⟨e, start, hrun, hna, hnm, hdrop, hend⟩ := g.next (b := b) hown hd ha hns
  refine ⟨e, hna, hnm, ?_⟩
  have hfit : l.stored.length < 2 ^ 64 := by
    have := congrArg List.length hdrop
    rw [List.length_drop, List.length_append] at this
    omega
  have hdata : entryData C e.compression data start (if e.dataDescriptor then 2 ^ 64 - 1 else e.compressedSize.toNat)
      = ⟨d, l.stored.length, true⟩ := by
    rw [hna.method, hna.descriptor]
    cases hst : l.streamed with
    | false =>
      simp only [Bool.false_eq_true, if_false]
      rw [hna.cs hst, Listing.cs, UInt64.toNat_ofNat', Nat.mod_eq_of_lt hfit]
      exact Holds.entryData hh hdrop
    | true =>
      simp only [if_true]
      rcases hh with ⟨h1, _⟩ | ⟨h1, h2⟩
      · exact absurd h1 (hns hst)
      · unfold Spec.entryData
        rw [if_neg h1]
        have hw : window data start (2 ^ 64 - 1) = l.stored ++ (tailBytes force l ++ rest) := by
          unfold window
          rw [List.take_of_length_le (by rw [List.length_drop]; omega), hdrop]
        rw [hw]
        exact h2 _
  have tail : ∀ s1 : RState, s1.data = data → s1.pos = start + l.stored.length →
      Does (if e.dataDescriptor then consumeDataDescriptor else Pure.pure ()) s1 fun _ s' =>
        s'.data = data ∧ s'.pos = off + x.length := by
    intro s1 h1 h2
    refine (Does.descriptor (t := tailBytes force l) (rest := rest) h1 ?_ ?_ ?_).mono fun _ s' h => ⟨h.1, ?_⟩
    · rw [h2]; exact drop_append_of_drop hdrop rfl
    · rw [hna.descriptor]; exact tail_length force l
    · rw [hna.descriptor]; exact tail_sig
    · have := h.2; omega
  exact visit_does hrun hdata tail

/-- Entries standing one after the other, from `off`. -/
inductive Chain (force : Bool) : Nat → Bytes → List (Listing × CdEntry) → Prop where
  | nil (off : Nat) : Chain force off [] []
  | cons {off : Nat} {x y : Bytes} {l : Listing} {c : CdEntry} {ps : List (Listing × CdEntry)} (g : Good force off x l c)
      (h : Chain force (off + x.length) y ps) : Chain force off (x ++ y) ((l, c) :: ps)

theorem Chain.snoc {force : Bool} {off : Nat} {y x : Bytes} {ps : List (Listing × CdEntry)} {l : Listing} {c : CdEntry}
    (h : Chain force off y ps) (g : Good force (off + y.length) x l c) : Chain force off (y ++ x) (ps ++ [(l, c)]) := by
  induction h with
  | nil off =>
    have := Chain.cons g (.nil _)
    rw [List.append_nil] at this
    exact this
  | cons g' _ ih =>
    rw [List.append_assoc]
    refine .cons g' (ih ?_)
    rw [List.length_append] at g
    rw [Nat.add_assoc]
    exact g

theorem Body.chain {force : Bool} {out : Bytes} {ps : List (Listing × CdEntry)} (h : Body False force out ps) :
    Chain force 0 out ps := by
  induction h with
  | nil => exact .nil 0
  | snoc _ g ih => exact ih.snoc (by rw [Nat.zero_add]; exact g)
  | junk _ hj => exact hj.elim

/-- The end of the entries: the central directory. -/
theorem Runs.nextNone {b : Build} {data rest : Bytes} {pos : Nat} (h : data.drop pos = le32 CDH_SIGNATURE ++ rest) :
    Runs (streamNext b) data pos (.ok none) (pos + 4) := by
  have : Runs (lfh b) data pos (.ok none) (pos + 4) :=
    Runs.bind (Runs.exactAt h (le32_length _)) (Runs.ite_neg (by rw [fromLe32_le32]; decide)
      (Runs.ite_pos (fromLe32_le32 _) Runs.pure))
  exact Runs.bind this Runs.pure

/-- Visiting all entries. -/
theorem Chain.visits {C : Codec} {b : Build} {force : Bool} {data rest : Bytes} (hlen : data.length < 2 ^ 64) :
    ∀ {off : Nat} {y : Bytes} {ps : List (Listing × CdEntry)}, Chain force off y ps → ∀ {a : Bytes} {ds : List Bytes},
      data = a ++ (y ++ (le32 CDH_SIGNATURE ++ rest)) → a.length = off →
      (∀ p ∈ ps, ∀ f ∈ p.1.entry.extraFields, OwnField f) →
      (∀ p ∈ ps, p.1.streamed = true → p.1.entry.compression ≠ .stored) →
      List.Forall₂ (fun p d => Holds C p.1 d) ps ds →
      ∃ es, List.Forall₂ (fun p e => NextAs p.1 e ∧ e.filename = nameRead p.1.entry) ps es ∧
        (∀ (vs : List Visit), (∀ v ∈ vs, v.Buffered) → (∀ q ∈ es.zip (vs.zip ds), q.2.1.Confirms q.1 q.2.2) →
          ∀ s : RState, s.data = data → s.pos = off → Does (Spec.visits C b vs) s fun r s' =>
            r = ((es.zip (vs.zip ds)).map fun q => (q.1, q.2.1.sees q.2.2), decide (ps.length < vs.length)) ∧
              s'.pos ≤ off + y.length + 4) ∧
        ∀ (vs ws : List Visit) (k : Nat) (e : ZipEntry) (d : Bytes), (∀ v ∈ vs, v.Buffered) →
          (∀ q ∈ es.zip (vs.zip ds), q.2.1.Confirms q.1 q.2.2) → 0 < k → es[vs.length]? = some e → ds[vs.length]? = some d →
          e.crc32 ≠ crc32 d → ∀ s : RState, s.data = data → s.pos = off →
            Interrupted (Spec.visits C b (vs ++ .check k :: ws) s).1 ∨
              (Spec.visits C b (vs ++ .check k :: ws) s).1 = .error (.err .crc32CheckError) := by
  intro off y ps h
  induction h with
  | nil off =>
    intro a ds hd ha _ _ hh
    cases hh
    refine ⟨[], .nil, fun vs _ _ s hs hp => ?_, fun vs ws k e d _ _ _ he => by simp at he⟩
    cases vs with
    | nil => exact Does.pure ⟨rfl, by omega⟩
    | cons v vs =>
      have hdrop : data.drop off = le32 CDH_SIGNATURE ++ rest := by
        rw [hd, ← ha, List.drop_left, List.nil_append]
      unfold Spec.visits Spec.visit
      refine Does.bind (Does.bind (Does.of_runs (streamNext_chunkIndep b) (Runs.nextNone hdrop) hs hp) fun r s1 h1 => ?_
        : Does _ s fun r s' => r = none ∧ s'.pos = off + 4) fun r s1 h1 => ?_
      · rw [h1.1]
        exact Does.pure ⟨rfl, h1.2.2⟩
      · rw [h1.1]
        exact Does.pure ⟨by simp, by rw [h1.2, List.length_nil]; omega⟩
  | @cons off x y l c ps g _ ih =>
    intro a ds hd ha hown hns hh
    cases hh with
    | @cons _ d _ ds h1 h2 =>
      obtain ⟨e, hna, hnm, hv, hv'⟩ := g.visit (C := C) (b := b) (d := d) (hown _ List.mem_cons_self)
        (by rw [hd, List.append_assoc]) ha (hns _ List.mem_cons_self) hlen h1
      obtain ⟨es, hes, hvs, hvs'⟩ := ih (a := a ++ x) (by rw [hd]; simp only [List.append_assoc])
        (by rw [List.length_append, ha]) (fun p hp => hown p (List.mem_cons_of_mem _ hp))
        (fun p hp => hns p (List.mem_cons_of_mem _ hp)) h2
      refine ⟨e :: es, .cons ⟨hna, hnm⟩ hes, fun vs hvk hcf s hs hp => ?_, fun vs ws k e' d' hvk hcf hk he hd' hne s hs hp => ?_⟩
      rotate_left
      · cases vs with
        | nil =>
          obtain rfl : e = e' := by simpa using he
          obtain rfl : d = d' := by simpa using hd'
          rw [List.nil_append]
          unfold Spec.visits
          rcases hv' k hk hne s hs hp with h | h
          · left
            cases hr : Spec.visit C b (.check k) s with
            | mk r s1 =>
              rw [hr] at h
              cases r with
              | ok u => exact absurd h not_interrupted_ok
              | error y => rw [bind_of_error hr]; exact interrupted_cast h
          · right
            cases hr : Spec.visit C b (.check k) s with
            | mk r s1 =>
              rw [hr] at h
              cases h
              rw [bind_of_error hr]
        | cons v vs =>
          rw [List.cons_append]
          unfold Spec.visits
          rcases hv v (hvk v List.mem_cons_self) (hcf (e, v, d) List.mem_cons_self) s hs hp with h | ⟨r, s1, h, rfl, k2, k3⟩
          · left
            cases hr : Spec.visit C b v s with
            | mk r s1 =>
              rw [hr] at h
              cases r with
              | ok u => exact absurd h not_interrupted_ok
              | error y => rw [bind_of_error hr]; exact interrupted_cast h
          · rw [bind_of_ok h]
            simp only []
            have hx := hvs' vs ws k e' d' (fun k hk => hvk k (List.mem_cons_of_mem _ hk))
              (fun q hq => hcf q (List.mem_cons_of_mem _ hq)) hk (by simpa using he) (by simpa using hd') hne s1 k2 k3
            cases hr : Spec.visits C b (vs ++ .check k :: ws) s1 with
            | mk r s2 =>
              rw [hr] at hx
              cases r with
              | ok u =>
                rcases hx with hx | hx
                · exact absurd hx not_interrupted_ok
                · cases hx
              | error y =>
                rw [bind_of_error hr]
                rcases hx with hx | hx
                · exact Or.inl (interrupted_cast hx)
                · cases hx
                  exact Or.inr rfl
      cases vs with
      | nil => exact Does.pure ⟨rfl, by omega⟩
      | cons v vs =>
        unfold Spec.visits
        refine Does.bind (hv v (hvk v List.mem_cons_self) (hcf (e, v, d) List.mem_cons_self) s hs hp) fun r s1 k1 => ?_
        obtain ⟨rfl, k2, k3⟩ := k1
        simp only []
        refine Does.bind (hvs vs (fun k hk => hvk k (List.mem_cons_of_mem _ hk)) 
          (fun q hq => hcf q (List.mem_cons_of_mem _ hq)) s1 k2 k3) fun r s2 k4 => ?_
        rw [k4.1]
        refine Does.pure ⟨by simp, ?_⟩
        have := k4.2
        rw [List.length_append]
        omega

end AsyncZip
