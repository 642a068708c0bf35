import Verif.Proofs.InSequence
import Verif.Samples.Sequential
import Verif.Props.Agree
import Verif.Props.Independent
/-!
# C85 and C86: software that reads archives from front to back
-/

namespace AsyncZip
open Spec Rd

/-- C85, and how far it goes: software that goes through the archive from front to back, by the local headers and data
descriptors as the ZIP specification has them, reads what was written if and only if every entry is `InSequence`; then it gets the
listed entries in order, with name, method, date, checksum, sizes and data. For archives in which no call failed half-way, with
the caller's own extra fields, and every lossless codec. Partial: it is not so for streams (`C85_streamed_fails`,
`C85_exchanged_fails`). -/
theorem C85_sequential_partial (C : Codec) (hC : Lawful C) (sink sink' : Sink) (zw : ZipWriter) (h : Created sink zw)
    (hs : sink.bytes = []) (ops : List Op) (evs : List Ev) (hc : (runArchive C zw ops evs).2.1 = .ok sink')
    (hfine : ∀ r ∈ (runArchive C zw ops evs).1, Fine r) (hown : ∀ op ∈ ops, ∀ f ∈ userFields op, OwnField f)
    (hsize : sink'.bytes.length < 2 ^ 64)
    (ds : List Bytes) (hds : DataIn C ops (runArchive C zw ops evs).1 ds) :
    ∃ ls, Program C ops (runArchive C zw ops evs).1 ls ∧
      (List.Forall₂ (InSequence zw.forceNoZip64) ls ds →
        ∃ qs, sequential C sink'.bytes = some qs ∧ List.Forall₂ (fun p q => ShowsPart p.1 p.2 q) (ls.zip ds) qs) ∧
      (¬ List.Forall₂ (InSequence zw.forceNoZip64) ls ds → sequential C sink'.bytes = none) := by
  obtain ⟨out, ps, offs, cd, z, fin⟩ := finished h hs hc (J := False) (Or.inr hfine)
  have hcon := Program.data hC fin.program hds
  rw [List.forall₂_map_left_iff] at hcon
  refine ⟨_, fin.program, ?_⟩
  rw [List.forall₂_map_left_iff]
  have hb := fin.bytes
  cases hps : ps with
  | nil =>
    rw [hps] at hcon hb
    cases hcon
    have hout : out = [] := by
      have := Body.chain fin.body
      rw [hps] at this
      cases this
      rfl
    have hcd : cd = [] := by
      have := fin.directory
      rw [hps, List.map_nil] at this
      cases this
      rfl
    have : sequential C sink'.bytes = some [] := by
      unfold sequential
      rw [if_pos]
      rw [hb, hout, hcd, archiveBytes, List.nil_append, List.nil_append]
      unfold endBytes
      cases z with
      | false =>
        left
        rw [if_neg (by decide), List.nil_append]
        have := occurs_of_drop (data := le32 EOCDR_SIGNATURE ++ ((eocdrOf 0 0 0 (commentBytes (finalComment none ops))).asSlice ++
          commentBytes (finalComment none ops))) (j := 0) rfl
        rwa [show le32 EOCDR_SIGNATURE = sigEnd by decide] at this
      | true =>
        right
        rw [if_pos rfl]
        unfold zip64EndBytes
        simp only [List.append_assoc]
        have key : ∀ t, OccursAt (le32 ZIP64_EOCDR_SIGNATURE ++ t) sigZip64End 0 := fun t => by
          have := occurs_of_drop (pat := le32 ZIP64_EOCDR_SIGNATURE) (j := 0) (data := le32 ZIP64_EOCDR_SIGNATURE ++ t) rfl
          rwa [show le32 ZIP64_EOCDR_SIGNATURE = sigZip64End by decide] at this
        exact key _
    exact ⟨fun _ => ⟨[], this, .nil⟩, fun h => absurd .nil h⟩
  | cons p ps' =>
    have hdir := fin.directory
    rw [hps, List.map_cons] at hdir
    obtain ⟨rest, hcd⟩ : ∃ rest, cd = le32 CDH_SIGNATURE ++ rest := by
      cases hdir with
      | cons hx hd => exact ⟨_, by rw [recordBytes, List.append_assoc]⟩
    obtain ⟨tail, hfull⟩ : ∃ tail, sink'.bytes = [] ++ (out ++ (le32 CDH_SIGNATURE ++ tail)) :=
      ⟨rest ++ endBytes z ps.length cd.length out.length (commentBytes (finalComment none ops)), by
        rw [hb, archiveBytes, List.nil_append, ← List.append_assoc (le32 CDH_SIGNATURE), ← hcd]⟩
    have hchain := Body.chain fin.body
    obtain ⟨k1, k2⟩ := hchain.parts (C := C) hsize hfull rfl (n := sink'.bytes.length + 1)
      (by have := congrArg List.length hfull; simp only [List.length_append] at this; omega) (fin.own hown) hcon
    have hlocal : OccursAt sink'.bytes sigLocal 0 := by
      have hown' := fin.own hown
      rw [hps] at hchain hcon hown'
      cases hchain with
      | @cons _ x y _ _ _ g _ =>
        cases hcon with
        | cons c1 _ =>
          exact (g.part (C := C) (a := []) (rest := y ++ (le32 CDH_SIGNATURE ++ tail))
            (hown' _ List.mem_cons_self) (by rw [hfull]; simp only [List.append_assoc]) rfl hsize c1.1 c1.2).1
    have hne : ¬ (OccursAt sink'.bytes sigEnd 0 ∨ OccursAt sink'.bytes sigZip64End 0) := by
      unfold OccursAt at hlocal ⊢
      rw [show sigEnd.length = sigLocal.length from rfl, show sigZip64End.length = sigLocal.length from rfl, hlocal]
      decide
    have hsq : sequential C sink'.bytes = parts C sink'.bytes (sink'.bytes.length + 1) 0 := by
      unfold sequential
      rw [if_neg hne]
    rw [hsq, ← hps]
    refine ⟨fun hi => ?_, k2⟩
    obtain ⟨qs, q1, q2⟩ := k1 hi
    refine ⟨qs, q1, ?_⟩
    rw [List.zip_map_left, List.forall₂_map_left_iff]
    exact q2

/-- C85 is not so for streams, in whatever program: unless `force_no_zip64` is on, the local header of a streamed entry has a
ZIP64 field, so that the sizes in the data descriptor should have eight bytes each (APPNOTE 4.3.9.2); the writer gives them
four, all ones. -/
theorem C85_streamed_fails (C : Codec) (hC : Lawful C) (sink sink' : Sink) (zw : ZipWriter) (h : Created sink zw)
    (hs : sink.bytes = []) (ops : List Op) (evs : List Ev) (hc : (runArchive C zw ops evs).2.1 = .ok sink')
    (hfine : ∀ r ∈ (runArchive C zw ops evs).1, Fine r) (hown : ∀ op ∈ ops, ∀ f ∈ userFields op, OwnField f)
    (hsize : sink'.bytes.length < 2 ^ 64)
    (ds : List Bytes) (hds : DataIn C ops (runArchive C zw ops evs).1 ds) (hforce : zw.forceNoZip64 = false)
    (k : Nat) (e : ZipEntry) (pre : Bool) (evs₁ evs₂ : List Ev) (acts : List StreamAct) (r : OpResult)
    (hop : ops[k]? = some (.stream e pre evs₁ acts (.close evs₂))) (hr : (runArchive C zw ops evs).1[k]? = some r)
    (hl : isListed r = true) : sequential C sink'.bytes = none := by
  obtain ⟨ls, h1, _, h3⟩ := C85_sequential_partial C hC sink sink' zw h hs ops evs hc hfine hown hsize ds hds
  refine h3 fun hi => ?_
  obtain ⟨l, hi1, ha⟩ := Program.nth h1 hop hr hl
  obtain ⟨d, _, hd⟩ := forall₂_get' hi hi1
  have hst : l.streamed = true := by cases ha <;> rfl
  rw [hforce] at hd
  exact absurd (hd.2 hst).1 (by decide)

/-- C86, the part that holds: every archive that such software accepts, the library's streaming reader goes through as well: it
shows the same entries in the same order, gives the same data, however the client visits the entries and the source delivers
the bytes, and ends where they end. Partial: for archives with at least one entry (`C86_empty_fails`), whose extra fields are
complete by the library's standards, and in which no entry with a data descriptor has a ZIP64 field
(`C86_zip64_descriptor_fails`). Where checksum and sizes are in a data descriptor the library does not show them, so that
`Confirms` asks for a visit without the check, unless the local header has the checksum as well. -/
theorem C86_streaming_partial (C : Codec) (data : Bytes) (ps : List Part) (h : sequential C data = some ps) (hne : ps ≠ [])
    (hlen : data.length < 2 ^ 64) (hc : ∀ p ∈ ps, ∀ block ∈ p.extra, CompleteField block)
    (hz : ∀ p ∈ ps, p.described = true → ∀ block ∈ p.extra, block.1 ≠ 1) (b : Build) :
    ∃ es, List.Forall₂ NextMatches ps es ∧
      ∀ (vs : List Visit), (∀ v ∈ vs, v.Buffered) →
        (∀ q ∈ es.zip (vs.zip (ps.map Part.content)), q.2.1.Confirms q.1 q.2.2) →
        ∀ s : RState, s.data = data → s.pos = 0 → Interrupted (visits C b vs s).1 ∨ (visits C b vs s).1 =
          .ok ((es.zip (vs.zip (ps.map Part.content))).map fun q => (q.1, q.2.1.sees q.2.2), decide (ps.length < vs.length)) := by
  unfold sequential at h
  split at h
  · cases h; exact absurd rfl hne
  · obtain ⟨es, h1, h2⟩ := (parts_some h).visits (b := b) hlen hc hz
    refine ⟨es, h1, fun vs hv hcf s hs hp => (h2 vs hv hcf s hs hp).imp id ?_⟩
    rintro ⟨r, s', g1, rfl⟩
    rw [g1]

/-- C86, for entries with their checksum and sizes in the local header: reading them with the check succeeds, and the sum is
that of the data. -/
theorem C86_checked_partial (C : Codec) (data : Bytes) (ps : List Part) (h : sequential C data = some ps) (hne : ps ≠ [])
    (hlen : data.length < 2 ^ 64) (hc : ∀ p ∈ ps, ∀ block ∈ p.extra, CompleteField block)
    (hz : ∀ p ∈ ps, p.described = false) (b : Build) :
    ∃ es, List.Forall₂ NextMatches ps es ∧
      ∀ (vs : List Visit), (∀ v ∈ vs, v.Buffered) →
        ∀ s : RState, s.data = data → s.pos = 0 → Interrupted (visits C b vs s).1 ∨ (visits C b vs s).1 =
          .ok ((es.zip (vs.zip (ps.map Part.content))).map fun q => (q.1, q.2.1.sees q.2.2), decide (ps.length < vs.length)) := by
  obtain ⟨es, h1, h2⟩ := C86_streaming_partial C data ps h hne hlen hc
    (fun p hp hd => by rw [hz p hp] at hd; cases hd) b
  refine ⟨es, h1, fun vs hv s hs hp => h2 vs hv (fun q hq => ?_) s hs hp⟩
  obtain ⟨i, hi⟩ := List.mem_iff_getElem?.1 hq
  rw [List.getElem?_zip_eq_some, List.getElem?_zip_eq_some] at hi
  obtain ⟨i1, i2, i3⟩ := hi
  rw [List.getElem?_map] at i3
  cases hpi : ps[i]? with
  | none => rw [hpi] at i3; cases i3
  | some p =>
    rw [hpi] at i3
    obtain ⟨e, he, hm⟩ := forall₂_get' h1 hpi
    rw [i1] at he
    cases he
    have hpm := List.mem_of_getElem? hpi
    have hcrc : p.crc = (crc32 p.content).toNat := by
      unfold sequential at h
      split at h
      · cases h; exact absurd rfl hne
      · exact (parts_some h).crcs p hpm
    intro k hk
    have := hm.crc (hz p hpm)
    rw [hcrc] at this
    rw [← Option.some.inj i3]
    exact UInt32.toNat_inj.1 this

/-- C86 is not so where an entry has both a data descriptor and a ZIP64 field, in whatever archive: the sizes in the descriptor
have eight bytes each (APPNOTE 4.3.9.2), the library skips four each, takes the first half of the uncompressed size for the
signature of a header, and fails. (Unless that happens to be one of the two signatures it knows.) -/
theorem C86_zip64_descriptor_fails (C : Codec) (data : Bytes) (pre post : List Part) (p : Part)
    (h : sequential C data = some (pre ++ p :: post)) (hlen : data.length < 2 ^ 64)
    (hc : ∀ q ∈ pre ++ [p], ∀ block ∈ q.extra, CompleteField block)
    (hz : ∀ q ∈ pre, q.described = true → ∀ block ∈ q.extra, block.1 ≠ 1)
    (hd : p.described = true) (hp : ∃ block ∈ p.extra, block.1 = 1)
    (n1 : p.content.length % 2 ^ 32 ≠ 0x04034b50) (n2 : p.content.length % 2 ^ 32 ≠ 0x02014b50) (b : Build) :
    ∃ es, List.Forall₂ NextMatches (pre ++ [p]) es ∧
      ∀ (vs : List Visit), (∀ v ∈ vs, v.Buffered) → pre.length + 1 < vs.length →
        (∀ q ∈ es.zip (vs.zip ((pre ++ [p]).map Part.content)), q.2.1.Confirms q.1 q.2.2) →
        ∀ s : RState, s.data = data → s.pos = 0 → Interrupted (visits C b vs s).1 ∨
          ∃ v : UInt32, v.toNat = p.content.length % 2 ^ 32 ∧
            (visits C b vs s).1 = .error (.err (.unexpectedHeaderError v 0x04034b50)) := by
  unfold sequential at h
  split at h
  · have := congrArg List.length (Option.some.inj h)
    simp at this
  · exact (parts_some h).lost (b := b) hlen hd hp (hc p (List.mem_append_right _ (List.mem_singleton.2 rfl))) n1 n2 pre
      (fun q hq => hc q (List.mem_append_left _ hq)) hz

/-- C86 is not so for an archive without entries: it begins with its end record, where the library expects a header. -/
theorem C86_empty_fails (C : Codec) (data : Bytes) (h : OccursAt data sigEnd 0) (b : Build) (s : RState) (hs : s.data = data)
    (hp : s.pos = 0) : sequential C data = some [] ∧
      (Interrupted (streamNext b s).1 ∨ (streamNext b s).1 = .error (.err (.unexpectedHeaderError 0x06054b50 0x04034b50))) := by
  refine ⟨?_, ?_⟩
  · unfold sequential
    rw [if_pos (Or.inl h)]
  · have h4 : 4 ≤ data.length := by
      have := congrArg List.length h
      rw [List.length_take, List.length_drop, show sigEnd.length = 4 from rfl] at this
      omega
    have hf : fieldAt data 0 4 = EOCDR_SIGNATURE.toNat := fieldAt_of_occurs (by
      rwa [show le32 EOCDR_SIGNATURE = sigEnd by decide])
    subst hs
    rcases streamNext_unknown b s (by omega) (by rw [hp, hf]; decide) (by rw [hp, hf]; decide) with hi | ⟨v, v1, v2⟩
    · exact Or.inl hi
    · right
      rw [hp, hf] at v1
      rw [v2, UInt32.toNat_inj.1 v1]
      rfl

/-! ## Concrete cases -/

theorem Samples.pair_archive :
    (runArchive Samples.markCodec Samples.fresh Samples.pair Samples.eager).1 = [.whole (.ok ()), .whole (.ok ())] ∧
    (runArchive Samples.markCodec Samples.fresh Samples.pair Samples.eager).2.1 = .ok ⟨Samples.pairBytes, 0, 0⟩ := by
  decide +kernel

/-- Two files written whole are read in sequence. -/
example : sequential Samples.markCodec Samples.pairBytes = some
    [⟨[97, 46, 116], .stored, 6275, 20514, 3633523372, 2, 2, [], false, [104, 105]⟩,
     ⟨[98], .deflate, 0, 0, 2724731650, 1, 3, [], false, [5]⟩] := by decide +kernel

example : ∃ ls qs, Program Samples.markCodec Samples.pair [.whole (.ok ()), .whole (.ok ())] ls ∧
    sequential Samples.markCodec Samples.pairBytes = some qs ∧
    List.Forall₂ (fun p q => ShowsPart p.1 p.2 q) (ls.zip [[104, 105], [5]]) qs := by
  have hr := Samples.pair_archive.1
  obtain ⟨ls, h1, h2, _⟩ := C85_sequential_partial Samples.markCodec Samples.markCodec_lawful ⟨[], 0, 0⟩
    ⟨Samples.pairBytes, 0, 0⟩ Samples.fresh .new rfl Samples.pair Samples.eager Samples.pair_archive.2
    (by rw [hr]
        simp only [List.forall_mem_cons]
        exact ⟨Or.inl rfl, Or.inl rfl, fun _ h => by cases h⟩)
    (by rw [Samples.pair]
        simp only [List.forall_mem_cons]
        exact ⟨(fun _ h => by cases h), (fun _ h => by cases h), fun _ h => by cases h⟩)
    (by decide +kernel) [[104, 105], [5]]
    (by rw [hr]; exact .listed rfl (.whole _ _ _ _) (.listed rfl (.whole _ _ _ _) .nil))
  rw [hr] at h1
  have hin : List.Forall₂ (InSequence Samples.fresh.forceNoZip64) ls [[104, 105], [5]] := by
    cases h1 with
    | other h => exact absurd (Or.inl rfl) h
    | listed ha h1 =>
      cases ha
      cases h1 with
      | other h => exact absurd (Or.inl rfl) h
      | listed ha h1 =>
        cases ha
        cases h1
        exact .cons ⟨rfl, fun h => by cases h⟩ (.cons ⟨rfl, fun h => by cases h⟩ .nil)
  obtain ⟨qs, q1, q2⟩ := h2 hin
  exact ⟨ls, qs, h1, q1, q2⟩

/-- A stream between two files: nothing is read. -/
example : sequential Samples.markCodec Samples.tourBytes = none := by
  have hr := Samples.tour_archive.1
  exact C85_streamed_fails Samples.markCodec Samples.markCodec_lawful ⟨[], 0, 0⟩ ⟨Samples.tourBytes, 1, 0⟩ Samples.fresh .new rfl
    Samples.tour Samples.eager Samples.tour_archive.2
    (by rw [hr]
        simp only [List.forall_mem_cons]
        exact ⟨Or.inl rfl, trivial, Or.inl rfl, Or.inl rfl, fun _ h => by cases h⟩)
    Samples.tour_legible.own (by decide +kernel) [[104, 105], [7, 8, 9], [5]] (by rw [hr]; exact Samples.tour_data) rfl
    2 _ _ _ _ _ _ rfl (by rw [hr]; rfl) rfl

/-- C85 is not so for compressed streams with `force_no_zip64` either: the two sizes in the data descriptor are exchanged. -/
theorem C85_exchanged_fails :
    (runArchive Samples.markCodec small Samples.streamOne Samples.eager).1 = [.stream (.ok ()) [.ok 3] (some (.ok ()))] ∧
    (runArchive Samples.markCodec small Samples.streamOne Samples.eager).2.1 = .ok ⟨Samples.exchangedBytes, 0, 0⟩ ∧
    sequential Samples.markCodec Samples.exchangedBytes = none :=
  ⟨Samples.exchanged_archive.1, Samples.exchanged_archive.2, by decide +kernel⟩

theorem Samples.described_parts : sequential Samples.markCodec Samples.described = some
    [⟨[98], .deflate, 6275, 20514, 1259076923, 3, 7, [], true, [7, 8, 9]⟩,
     ⟨[97, 46, 116], .stored, 6275, 20514, 3633523372, 2, 2, [], false, [104, 105]⟩] := by decide +kernel

/-- An archive of other origin, whose first entry has a data descriptor: the first entry read in buffers of two bytes, the second
with the check, and then the end. -/
example (b : Build) : ∃ e1 e2, e1.dataDescriptor = true ∧ e2.crc32 = 3633523372 ∧
    ∀ s : RState, s.data = Samples.described → s.pos = 0 →
      Interrupted (visits Samples.markCodec b [.read 2, .check 9, .skip] s).1 ∨
      (visits Samples.markCodec b [.read 2, .check 9, .skip] s).1 = .ok ([(e1, some [7, 8, 9]), (e2, some [104, 105])], true) := by
  obtain ⟨es, h1, h2⟩ := C86_streaming_partial Samples.markCodec Samples.described _ Samples.described_parts (by simp)
    (by decide +kernel) (by simp) (by simp) b
  cases h1 with
  | cons m1 h1 =>
    cases h1 with
    | cons m2 h1 =>
      cases h1
      rename_i e1 e2
      have hcrc : e2.crc32 = 3633523372 := UInt32.toNat_inj.1 (m2.crc rfl)
      refine ⟨e1, e2, m1.described, hcrc, fun s hs hp => h2 _ ?_ ?_ s hs hp⟩
      · simp only [List.forall_mem_cons]
        exact ⟨Nat.succ_pos 1, Nat.succ_pos 8, trivial, fun _ h => by cases h⟩
      · simp only [List.map_cons, List.map_nil, List.zip_cons_cons, List.zip_nil_right, List.forall_mem_cons]
        exact ⟨(fun _ h => by cases h), (fun _ _ => by rw [hcrc]; decide +kernel), fun _ h => by cases h⟩

example (b : Build) := C86_checked_partial Samples.markCodec Samples.pairBytes
  [⟨[97, 46, 116], .stored, 6275, 20514, 3633523372, 2, 2, [], false, [104, 105]⟩,
   ⟨[98], .deflate, 0, 0, 2724731650, 1, 3, [], false, [5]⟩] (by decide +kernel) (by simp) (by decide +kernel) (by simp)
  (by simp) b

theorem Samples.wide_parts : sequential Samples.markCodec Samples.wide = some
    [⟨[98], .deflate, 6275, 20514, 1259076923, 3, 7, [(1, [0, 0, 0, 0, 0, 0, 0, 0, 0, 0, 0, 0, 0, 0, 0, 0])], true, [7, 8, 9]⟩,
     ⟨[97, 46, 116], .stored, 6275, 20514, 3633523372, 2, 2, [], false, [104, 105]⟩] := by decide +kernel

/-- The second `next` finds the number three where it looks for a signature. -/
example (b : Build) : ∀ s : RState, s.data = Samples.wide → s.pos = 0 →
    Interrupted (visits Samples.markCodec b [.skip, .skip] s).1 ∨
      (visits Samples.markCodec b [.skip, .skip] s).1 = .error (.err (.unexpectedHeaderError 3 0x04034b50)) := by
  obtain ⟨es, h1, h2⟩ := C86_zip64_descriptor_fails Samples.markCodec Samples.wide [] _ _ Samples.wide_parts
    (by decide +kernel) (by simp [CompleteField]) (by simp) rfl (by simp) (by decide) (by decide) b
  intro s hs hp
  refine (h2 [.skip, .skip] (by simp [Visit.Buffered]) (by decide) ?_ s hs hp).imp id ?_
  · intro q hq
    have hq := (List.of_mem_zip (List.of_mem_zip hq).2).1
    intro k hk
    rw [hk] at hq
    simp at hq
  · rintro ⟨v, v1, v2⟩
    rw [v2]
    obtain rfl : v = 3 := UInt32.toNat_inj.1 v1
    rfl

/-- An archive without entries. -/
example (b : Build) := C86_empty_fails Samples.markCodec [80, 75, 5, 6, 0, 0, 0, 0, 0, 0, 0, 0, 0, 0, 0, 0, 0, 0, 0, 0, 0, 0] (by decide) b
  ⟨[80, 75, 5, 6, 0, 0, 0, 0, 0, 0, 0, 0, 0, 0, 0, 0, 0, 0, 0, 0, 0, 0], 0, none, []⟩ rfl rfl

end AsyncZip
