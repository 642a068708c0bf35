import Verif.Spec.Sequential
import Verif.Proofs.Visits
import Verif.Proofs.Accepted
import Verif.Proofs.Local
import Verif.Proofs.OpenSpec
import Verif.Props.Openable
/-!
# What the sequential reader accepts, to the library's streaming reader
-/

namespace AsyncZip
open Spec Rd

theorem fieldAt_succ (b : Bytes) (i w : Nat) : fieldAt b i (w + 1) = fieldAt b i w + (b.getD (i + w) 0).toNat * 256 ^ w := by
  unfold fieldAt
  rw [List.range_succ, List.map_append, List.sum_append, List.map_cons, List.map_nil, List.sum_cons, List.sum_nil, Nat.add_zero]

theorem fieldAt_add (b : Bytes) (i w : Nat) : ∀ v, fieldAt b i (w + v) = fieldAt b i w + 256 ^ w * fieldAt b (i + w) v
  | 0 => by rw [Nat.add_zero, show fieldAt b (i + w) 0 = 0 from rfl, Nat.mul_zero, Nat.add_zero]
  | v + 1 => by
    rw [← Nat.add_assoc, fieldAt_succ, fieldAt_add b i w v, fieldAt_succ, Nat.mul_add, Nat.pow_add, Nat.add_assoc i w v]
    rw [Nat.mul_left_comm, Nat.add_assoc]

theorem fieldAt_eight (b : Bytes) (i : Nat) : fieldAt b i 8 = fieldAt b i 4 + 256 ^ 4 * fieldAt b (i + 4) 4 := fieldAt_add b i 4 4

theorem methodOf_some {v : Nat} {m : Compression} (h : methodOf v = some m) : (m, v) ∈ methodTable := by
  unfold methodOf at h
  cases hf : methodTable.find? fun p => p.2 = v with
  | none => rw [hf] at h; cases h
  | some q =>
    rw [hf] at h
    cases h
    have h1 := List.mem_of_find?_eq_some hf
    have h2 := List.find?_some hf
    simp only [decide_eq_true_eq] at h2
    rw [← h2]
    exact h1

theorem methodOf_of {v : Nat} {m : Compression} (h : (m, v) ∈ methodTable) : methodOf v = some m := by
  simp only [methodTable, List.mem_cons, Prod.mk.injEq, List.not_mem_nil, or_false] at h
  rcases h with ⟨rfl, rfl⟩ | ⟨rfl, rfl⟩ | ⟨rfl, rfl⟩ | ⟨rfl, rfl⟩ | ⟨rfl, rfl⟩ | ⟨rfl, rfl⟩ | ⟨rfl, rfl⟩ <;> rfl

/-- An entry that the sequential reader accepts. -/
structure AcceptedPart (C : Codec) (data : Bytes) (pos : Nat) (p : Part) (stop : Nat) : Prop where
  signature : OccursAt data sigLocal pos
  plain : (fieldAt data (pos + 6) 2).testBit 0 = false
  fits : dataStart data pos ≤ data.length
  method : (p.method, fieldAt data (pos + 8) 2) ∈ methodTable
  blocks : Blocks (window data (pos + 30 + fieldAt data (pos + 26) 2) (fieldAt data (pos + 28) 2)) p.extra []
  name : p.name = window data (pos + 30) (fieldAt data (pos + 26) 2)
  time : p.time = fieldAt data (pos + 10) 2
  date : p.date = fieldAt data (pos + 12) 2
  described : p.described = (fieldAt data (pos + 6) 2).testBit 3
  crc : p.crc = (crc32 p.content).toNat
  us : p.us = p.content.length
  behind : p.described = true → p.method ≠ .stored ∧ C.decode p.method (data.drop (dataStart data pos)) = ⟨p.content, p.cs, true⟩ ∧
    stop = descriptorBody data (dataStart data pos + p.cs) + 4 + 2 * descriptorWidth p.extra ∧ stop ≤ data.length
  stated : p.described = true → fieldAt data (descriptorBody data (dataStart data pos + p.cs) + 4 + descriptorWidth p.extra)
    (descriptorWidth p.extra) = p.us
  before : p.described = false → entryData C p.method data (dataStart data pos) p.cs = ⟨p.content, p.cs, true⟩ ∧
    stop = dataStart data pos + p.cs ∧ stop ≤ data.length ∧ fieldAt data (pos + 14) 4 = p.crc ∧
    p.us = trueValue (fieldAt data (pos + 22) 4) (zip64Content p.extra) 0 ∧
    p.cs = trueValue (fieldAt data (pos + 18) 4) (zip64Content p.extra) (room (fieldAt data (pos + 22) 4))

theorem part_some {C : Codec} {data : Bytes} {pos : Nat} {p : Part} {stop : Nat} (h : part C data pos = some (p, stop)) :
    AcceptedPart C data pos p stop := by
  unfold part at h
  split at h
  · cases h
  rename_i hh
  obtain ⟨h1, h2, h3⟩ := Decidable.not_not.1 hh
  split at h
  rotate_left
  · cases h
  rename_i m blocks hm hb
  simp only at h
  have hm' := methodOf_some hm
  have hb' := blocksOf_some hb
  split at h
  · rename_i hd
    split at h
    · cases h
    rename_i hns
    split at h
    · rename_i hr
      obtain ⟨r1, r2, r3, r4, r5⟩ := hr
      cases h
      refine ⟨h1, h2, h3, hm', hb', rfl, rfl, rfl, hd.symm, rfl, rfl, fun _ => ⟨hns, ?_, rfl, r2⟩, fun _ => r5, fun hf => by cases hf⟩
      have : ∀ r : DecodeResult, r.ok = true → r = ⟨r.out, r.used, true⟩ := fun r hr => by rw [← hr]
      exact this _ r1
    · cases h
  · rename_i hd
    split at h
    · rename_i hr
      obtain ⟨r1, r2, r3, r4, r5⟩ := hr
      cases h
      refine ⟨h1, h2, h3, hm', hb', rfl, rfl, rfl, (Bool.eq_false_iff.2 hd).symm, rfl, r4.symm, fun hf => (by cases hf), fun hf => (by cases hf),
        fun _ => ⟨?_, rfl, r1, r5, rfl, rfl⟩⟩
      have : ∀ (r : DecodeResult) (n : Nat), r.ok = true → r.used = n → r = ⟨r.out, n, true⟩ := fun r n hr hn => by
        rw [← hr, ← hn]
      exact this _ _ r2 r3
    · cases h

/-- The library reads such a header. -/
theorem AcceptedPart.good {C : Codec} {data : Bytes} {pos stop : Nat} {p : Part} (h : AcceptedPart C data pos p stop)
    (hc : ∀ block ∈ p.extra, CompleteField block) : GoodHeader data pos := by
  refine ⟨?_, h.signature, h.plain, ⟨_, h.method⟩, ?_, ⟨_, _, h.blocks, Nat.zero_le _, hc⟩⟩
  · have := h.fits
    unfold dataStart at this
    omega
  · rintro ⟨h1, h2⟩
    refine (h.behind (h.described.trans h1)).1 ?_
    have := h.method
    rw [h2] at this
    simpa [methodTable] using this

theorem streamNext_ideal {b : Build} {data : Bytes} {pos : Nat} (h : GoodHeader data pos) (hf : dataStart data pos ≤ data.length) :
    ∃ e, HeaderAt data pos e ∧ Runs (streamNext b) data pos (.ok (some ⟨EntryReader.new e.compression
      (if e.dataDescriptor then 2 ^ 64 - 1 else e.compressedSize.toNat), e, e.dataDescriptor⟩)) (dataStart data pos) := by
  obtain ⟨e, he⟩ := GoodHeader.outcome b h
  have hlen : (window data (pos + 4) 26).length = 26 := by
    have := h.fits
    rw [window, List.length_take, List.length_drop]
    omega
  have hn : (LocalFileHeader.ofBytes (window data (pos + 4) 26)).fileNameLength.toNat = fieldAt data (pos + 26) 2 :=
    lhField h.fits (i := 22) (by omega)
  have hx : (LocalFileHeader.ofBytes (window data (pos + 4) 26)).extraFieldLength.toNat = fieldAt data (pos + 28) 2 :=
    lhField h.fits (i := 24) (by omega)
  obtain ⟨q, h1, h2⟩ := Runs.lfhAt (b := b) (data := data) (pos := pos) (hb := window data (pos + 4) 26)
    (name := window data (pos + 30) (fieldAt data (pos + 26) 2))
    (xb := window data (pos + 30 + (window data (pos + 30) (fieldAt data (pos + 26) 2)).length) (fieldAt data (pos + 28) 2))
    h.signature rfl hlen (by rw [hn]; rfl) (by rw [hx]; rfl)
  have hq := h2 _ he
  rw [he] at h1
  have hq' : q = dataStart data pos := by
    rw [hq]
    unfold dataStart at hf ⊢
    simp only [window, List.length_take, List.length_drop]
    omega
  subst hq'
  have hrun : Runs (streamNext b) data pos (.ok (some ⟨EntryReader.new e.compression
      (if e.dataDescriptor then 2 ^ 64 - 1 else e.compressedSize.toNat), e, e.dataDescriptor⟩)) (dataStart data pos) :=
    Runs.bind h1 Runs.pure
  obtain ⟨l, hl⟩ := hrun []
  exact ⟨e, (GoodHeader.of_ok hl).2.1, hrun⟩

theorem AcceptedPart.next {C : Codec} {b : Build} {data : Bytes} {pos stop : Nat} {p : Part} (h : AcceptedPart C data pos p stop)
    (hc : ∀ block ∈ p.extra, CompleteField block) :
    ∃ e, NextMatches p e ∧ Runs (streamNext b) data pos (.ok (some ⟨EntryReader.new e.compression
      (if e.dataDescriptor then 2 ^ 64 - 1 else e.compressedSize.toNat), e, e.dataDescriptor⟩)) (dataStart data pos) := by
  obtain ⟨e, he, hrun⟩ := streamNext_ideal (b := b) (h.good hc) h.fits
  obtain ⟨bl, tail, v1, v2, v3, v4⟩ := he.values
  have hcont := Blocks.content v1 v2 h.blocks
  refine ⟨e, ⟨he.name.trans h.name.symm, ?_, he.time.trans h.time.symm, he.date.trans h.date.symm,
    he.dataDescriptor.trans h.described.symm, fun hd => ?_, fun hd => ?_, fun hd => ?_⟩, hrun⟩
  · have h1 := he.method
    have h2 := methodOf_of h.method
    rw [methodOf_of h1] at h2
    exact Option.some.inj h2
  · rw [he.crc]; exact (h.before hd).2.2.2.1
  · rw [v3, ← hcont]; exact (h.before hd).2.2.2.2.1.symm
  · rw [v4, ← hcont]; exact (h.before hd).2.2.2.2.2.symm

/-- What comes behind the data. -/
theorem Does.consume {data : Bytes} {s : RState} (hd : s.data = data) (hfit : s.pos + descriptorLength data s.pos ≤ data.length) :
    Does consumeDataDescriptor s fun _ s' => s'.data = data ∧ s'.pos = s.pos + descriptorLength data s.pos := by
  subst hd
  rcases C30_succeeds s hfit with h | h
  · exact Or.inl h
  · have h' : consumeDataDescriptor s = (.ok (), (consumeDataDescriptor s).2) := by rw [← h]
    obtain ⟨h1, h2, _⟩ := C30_consumed s _ h'
    exact Or.inr ⟨(), _, h', h1, h2⟩

/-- Where the library's streaming reader is after an entry: it takes every data descriptor to have sizes of four bytes. -/
def leftAt (data : Bytes) (pos : Nat) (p : Part) : Nat :=
  if p.described then descriptorBody data (dataStart data pos + p.cs) + 12 else dataStart data pos + p.cs

/-- One entry. -/
theorem AcceptedPart.visited {C : Codec} {b : Build} {data : Bytes} {pos stop : Nat} {p : Part} (h : AcceptedPart C data pos p stop)
    (hc : ∀ block ∈ p.extra, CompleteField block) (hlen : data.length < 2 ^ 64) :
    ∃ e, NextMatches p e ∧ ((∀ (v : Visit), v.Buffered → v.Confirms e p.content →
      ∀ s : RState, s.data = data → s.pos = pos → Does (Spec.visit C b v) s fun y s' =>
        y = some (e, v.sees p.content) ∧ s'.data = data ∧ s'.pos = leftAt data pos p) ∧
      ∀ k, 0 < k → e.crc32 ≠ crc32 p.content → ∀ s : RState, s.data = data → s.pos = pos →
        Interrupted (Spec.visit C b (.check k) s).1 ∨ (Spec.visit C b (.check k) s).1 = .error (.err .crc32CheckError)) := by
  obtain ⟨e, hm, hrun⟩ := h.next (b := b) hc
  refine ⟨e, hm, visit_does (n := p.cs) hrun ?_ fun s1 h1 h2 => ?_⟩
  · rw [hm.method, hm.described]
    cases hd : p.described with
    | false =>
      simp only [Bool.false_eq_true, if_false]
      rw [hm.cs hd]
      exact (h.before hd).1
    | true =>
      simp only [if_true]
      obtain ⟨b1, b2, _⟩ := h.behind hd
      unfold Spec.entryData
      rw [if_neg b1, window, List.take_of_length_le (by rw [List.length_drop]; omega), b2]
  · rw [hm.described, leftAt]
    cases hd : p.described with
    | false =>
      simp only [Bool.false_eq_true, if_false]
      exact Does.pure ⟨h1, h2⟩
    | true =>
      simp only [if_true]
      obtain ⟨_, _, b3, b4⟩ := h.behind hd
      have hw : 4 ≤ descriptorWidth p.extra := by
        unfold descriptorWidth
        split <;> omega
      have hstop : descriptorBody data (dataStart data pos + p.cs) + 12 = s1.pos + descriptorLength data s1.pos := by
        rw [h2]
        unfold descriptorBody descriptorLength
        split <;> omega
      rw [hstop]
      exact Does.consume h1 (by omega)

theorem AcceptedPart.leftAt_eq {C : Codec} {data : Bytes} {pos stop : Nat} {p : Part} (h : AcceptedPart C data pos p stop)
    (hz : p.described = true → ∀ block ∈ p.extra, block.1 ≠ 1) : leftAt data pos p = stop := by
  unfold leftAt
  cases hd : p.described with
  | false => exact (h.before hd).2.1.symm
  | true =>
    rw [if_pos rfl, (h.behind hd).2.2.1]
    have hw : descriptorWidth p.extra = 4 := by
      unfold descriptorWidth
      rw [if_neg]
      intro ha
      obtain ⟨bl, hb1, hb2⟩ := List.any_eq_true.1 ha
      exact hz hd bl hb1 (of_decide_eq_true hb2)
    rw [hw]

/-- All of them. -/
inductive AllParts (C : Codec) (data : Bytes) : Nat → List Part → Prop where
  | nil {pos : Nat} (h : OccursAt data sigCentral pos) : AllParts C data pos []
  | cons {pos stop : Nat} {p : Part} {ps : List Part} (h : AcceptedPart C data pos p stop) (hs : AllParts C data stop ps) :
      AllParts C data pos (p :: ps)

theorem parts_some {C : Codec} {data : Bytes} : ∀ {n pos : Nat} {ps : List Part}, parts C data n pos = some ps →
    AllParts C data pos ps := by
  intro n
  induction n with
  | zero => intro pos ps h; cases h
  | succ n ih =>
    intro pos ps h
    unfold parts at h
    split at h
    · rename_i hc
      cases h
      exact .nil hc
    · split at h
      · cases h
      · rename_i p stop hp
        cases hq : parts C data n stop with
        | none => rw [hq] at h; cases h
        | some qs =>
          rw [hq] at h
          cases h
          exact .cons (part_some hp) (ih hq)

theorem AllParts.crcs {C : Codec} {data : Bytes} {pos : Nat} {ps : List Part} (h : AllParts C data pos ps) :
    ∀ p ∈ ps, p.crc = (crc32 p.content).toNat := by
  induction h with
  | nil => intro p hp; cases hp
  | cons h _ ih =>
    intro p hp
    rcases List.mem_cons.1 hp with rfl | hp
    · exact h.crc
    · exact ih p hp

theorem AllParts.visits {C : Codec} {b : Build} {data : Bytes} (hlen : data.length < 2 ^ 64) {pos : Nat} {ps : List Part}
    (h : AllParts C data pos ps) :
    (∀ p ∈ ps, ∀ block ∈ p.extra, CompleteField block) →
    (∀ p ∈ ps, p.described = true → ∀ block ∈ p.extra, block.1 ≠ 1) →
    ∃ es, List.Forall₂ NextMatches ps es ∧
      ∀ (vs : List Visit), (∀ v ∈ vs, v.Buffered) →
        (∀ q ∈ es.zip (vs.zip (ps.map Part.content)), q.2.1.Confirms q.1 q.2.2) →
        ∀ s : RState, s.data = data → s.pos = pos → Does (Spec.visits C b vs) s fun r _ =>
          r = ((es.zip (vs.zip (ps.map Part.content))).map fun q => (q.1, q.2.1.sees q.2.2), decide (ps.length < vs.length)) := by
  induction h with
  | nil hc =>
    rename_i pos
    intro _ _
    refine ⟨[], .nil, fun vs _ _ s hs hp => ?_⟩
    cases vs with
    | nil => exact Does.pure rfl
    | cons v vs =>
      unfold Spec.visits Spec.visit
      refine Does.bind (Does.bind (Does.of_runs (streamNext_chunkIndep b) (Runs.streamNext_end b hc) hs hp) fun r s1 h1 => ?_
        : Does _ s fun r s' => r = none) fun r s1 h1 => ?_
      · rw [h1.1]
        exact Does.pure rfl
      · rw [h1]
        exact Does.pure (by simp)
  | @cons pos stop p ps h _ ih =>
    intro hc hz
    obtain ⟨e, hm, hv, _⟩ := h.visited (b := b) (hc p List.mem_cons_self) hlen
    rw [h.leftAt_eq (hz p List.mem_cons_self)] at hv
    obtain ⟨es, hes, hvs⟩ := ih (fun q hq => hc q (List.mem_cons_of_mem _ hq)) (fun q hq => hz q (List.mem_cons_of_mem _ hq))
    refine ⟨e :: es, .cons hm hes, fun vs hvk hcf s hs hp => ?_⟩
    cases vs with
    | nil => exact Does.pure rfl
    | cons v vs =>
      unfold Spec.visits
      refine Does.bind (hv v (hvk v List.mem_cons_self) (hcf (e, v, p.content) List.mem_cons_self) s hs hp) fun r s1 h1 => ?_
      obtain ⟨rfl, h2, h3⟩ := h1
      simp only
      refine Does.bind (hvs vs (fun w hw => hvk w (List.mem_cons_of_mem _ hw))
        (fun q hq => hcf q (List.mem_cons_of_mem _ hq)) s1 h2 h3) fun r s2 h4 => ?_
      rw [h4]
      exact Does.pure (by simp)

theorem fieldAt_of_occurs {data : Bytes} {j : Nat} {n : UInt32} (h : OccursAt data (le32 n) j) : fieldAt data j 4 = n.toNat := by
  unfold OccursAt at h
  rw [le32_length] at h
  exact fieldAt32_of_drop (rest := (data.drop j).drop 4) (by rw [← h, List.take_append_drop])

/-- Behind a descriptor with sizes of eight bytes, the library is in the middle of it. -/
theorem AcceptedPart.lost {C : Codec} {data : Bytes} {pos stop : Nat} {p : Part} (h : AcceptedPart C data pos p stop)
    (hd : p.described = true) (hz : ∃ block ∈ p.extra, block.1 = 1) :
    leftAt data pos p + 8 = stop ∧ fieldAt data (leftAt data pos p) 4 = p.content.length % 2 ^ 32 := by
  have hw : descriptorWidth p.extra = 8 := by
    unfold descriptorWidth
    rw [if_pos]
    obtain ⟨bl, h1, h2⟩ := hz
    rw [List.any_eq_true]
    exact ⟨bl, h1, decide_eq_true h2⟩
  have h1 := (h.behind hd).2.2.1
  have h2 := h.stated hd
  rw [hw] at h1 h2
  have hl : leftAt data pos p = descriptorBody data (dataStart data pos + p.cs) + 4 + 8 := by
    unfold leftAt
    rw [if_pos hd]
  rw [hl]
  refine ⟨by omega, ?_⟩
  rw [fieldAt_eight, h.us] at h2
  have := fieldAt_lt' data (descriptorBody data (dataStart data pos + p.cs) + 4 + 8) 4
  omega

theorem streamNext_unknown (b : Build) (s : RState) (hl : s.pos + 4 ≤ s.data.length)
    (h1 : fieldAt s.data s.pos 4 ≠ LFH_SIGNATURE.toNat) (h2 : fieldAt s.data s.pos 4 ≠ CDH_SIGNATURE.toNat) :
    Interrupted (streamNext b s).1 ∨ ∃ v : UInt32, v.toNat = fieldAt s.data s.pos 4 ∧
      (streamNext b s).1 = .error (.err (.unexpectedHeaderError v 0x04034b50)) := by
  have key : ∀ y, (lfh b s).1 = .error y → (streamNext b s).1 = .error y := by
    intro y hy
    have : lfh b s = (.error y, (lfh b s).2) := by rw [← hy]
    unfold streamNext
    rw [bind_of_error this]
  rcases lfh_unknown b s hl (fun h => h1 (fieldAt_of_occurs (n := LFH_SIGNATURE) (by
      rwa [show le32 LFH_SIGNATURE = sigLocal by decide]))) (fun h => h2 (fieldAt_of_occurs (n := CDH_SIGNATURE) (by
      rwa [show le32 CDH_SIGNATURE = sigCentral by decide]))) with h | ⟨v, h3, h4⟩
  · left
    cases hr : (lfh b s).1 with
    | ok u => rw [hr] at h; exact absurd h not_interrupted_ok
    | error y => rw [hr] at h; rw [key y hr]; exact interrupted_cast h
  · exact Or.inr ⟨v, h3, key _ h4⟩

/-- An error in one of the visits is what comes of them. -/
theorem visits_error {C : Codec} {b : Build} {v : Visit} {vs : List Visit} {s : RState} {y : Fail}
    (h : (Spec.visit C b v s).1 = .error y) : (Spec.visits C b (v :: vs) s).1 = .error y := by
  have : Spec.visit C b v s = (.error y, (Spec.visit C b v s).2) := by rw [← h]
  unfold Spec.visits
  rw [bind_of_error this]

theorem visits_later {C : Codec} {b : Build} {v : Visit} {vs : List Visit} {s s1 : RState} {x : ZipEntry × Option Bytes} {y : Fail}
    (h : Spec.visit C b v s = (.ok (some x), s1)) (h' : (Spec.visits C b vs s1).1 = .error y) :
    (Spec.visits C b (v :: vs) s).1 = .error y := by
  have : Spec.visits C b vs s1 = (.error y, (Spec.visits C b vs s1).2) := by rw [← h']
  unfold Spec.visits
  rw [bind_of_ok h]
  simp only
  rw [bind_of_error this]

theorem AllParts.lost {C : Codec} {b : Build} {data : Bytes} (hlen : data.length < 2 ^ 64) {p : Part} {post : List Part}
    (hd : p.described = true) (hz : ∃ block ∈ p.extra, block.1 = 1) (hc : ∀ block ∈ p.extra, CompleteField block)
    (n1 : p.content.length % 2 ^ 32 ≠ LFH_SIGNATURE.toNat) (n2 : p.content.length % 2 ^ 32 ≠ CDH_SIGNATURE.toNat) :
    ∀ (pre : List Part) {pos : Nat}, AllParts C data pos (pre ++ p :: post) →
    (∀ q ∈ pre, ∀ block ∈ q.extra, CompleteField block) →
    (∀ q ∈ pre, q.described = true → ∀ block ∈ q.extra, block.1 ≠ 1) →
    ∃ es, List.Forall₂ NextMatches (pre ++ [p]) es ∧
      ∀ (vs : List Visit), (∀ v ∈ vs, v.Buffered) → pre.length + 1 < vs.length →
        (∀ q ∈ es.zip (vs.zip ((pre ++ [p]).map Part.content)), q.2.1.Confirms q.1 q.2.2) →
        ∀ s : RState, s.data = data → s.pos = pos → Interrupted (Spec.visits C b vs s).1 ∨
          ∃ v : UInt32, v.toNat = p.content.length % 2 ^ 32 ∧
            (Spec.visits C b vs s).1 = .error (.err (.unexpectedHeaderError v 0x04034b50)) := by
  intro pre
  induction pre with
  | nil =>
    intro pos h _ _
    rw [List.nil_append] at h
    cases h with
    | @cons _ stop _ _ h hs =>
      obtain ⟨e, hm, hv, _⟩ := h.visited (b := b) hc hlen
      obtain ⟨l1, l2⟩ := h.lost hd hz
      have l3 := (h.behind hd).2.2.2
      refine ⟨[e], .cons hm .nil, fun vs hvk hvl hcf s hs hp => ?_⟩
      match vs, hvl with
      | v :: w :: vs, _ =>
        rcases hv v (hvk v List.mem_cons_self) (hcf (e, v, p.content) List.mem_cons_self) s hs hp with hi | ⟨r, s1, h1, rfl, h2, h3⟩
        · left
          cases hr : (Spec.visit C b v s).1 with
          | ok u => rw [hr] at hi; exact absurd hi not_interrupted_ok
          | error y => rw [hr] at hi; rw [visits_error hr]; exact interrupted_cast hi
        · have hnext : ∀ y, (streamNext b s1).1 = .error y → (Spec.visits C b (v :: w :: vs) s).1 = .error y := by
            intro y hy
            refine visits_later h1 (visits_error ?_)
            have : streamNext b s1 = (.error y, (streamNext b s1).2) := by rw [← hy]
            unfold Spec.visit
            rw [bind_of_error this]
          rcases streamNext_unknown b s1 (by rw [h2, h3]; omega) (by rw [h2, h3, l2]; exact n1) (by rw [h2, h3, l2]; exact n2)
            with hi | ⟨u, u1, u2⟩
          · left
            cases hr : (streamNext b s1).1 with
            | ok u => rw [hr] at hi; exact absurd hi not_interrupted_ok
            | error y => rw [hr] at hi; rw [hnext y hr]; exact interrupted_cast hi
          · exact Or.inr ⟨u, by rw [u1, h2, h3, l2], hnext _ u2⟩
  | cons q pre ih =>
    intro pos h hcq hzq
    rw [List.cons_append] at h
    cases h with
    | @cons _ stop _ _ h hs =>
      obtain ⟨e, hm, hv, _⟩ := h.visited (b := b) (hcq q List.mem_cons_self) hlen
      rw [h.leftAt_eq (hzq q List.mem_cons_self)] at hv
      obtain ⟨es, hes, hvs⟩ := ih hs (fun r hr => hcq r (List.mem_cons_of_mem _ hr)) (fun r hr => hzq r (List.mem_cons_of_mem _ hr))
      refine ⟨e :: es, .cons hm hes, fun vs hvk hvl hcf s hs hp => ?_⟩
      cases vs with
      | nil => rw [List.length_nil] at hvl; omega
      | cons v vs =>
        rcases hv v (hvk v List.mem_cons_self) (hcf (e, v, q.content) List.mem_cons_self) s hs hp with hi | ⟨r, s1, h1, rfl, h2, h3⟩
        · left
          cases hr : (Spec.visit C b v s).1 with
          | ok u => rw [hr] at hi; exact absurd hi not_interrupted_ok
          | error y => rw [hr] at hi; rw [visits_error hr]; exact interrupted_cast hi
        · rw [List.length_cons, List.length_cons] at hvl
          rcases hvs vs (fun w hw => hvk w (List.mem_cons_of_mem _ hw)) (by omega)
            (fun r hr => hcf r (List.mem_cons_of_mem _ hr)) s1 h2 h3 with hi | ⟨u, u1, u2⟩
          · left
            cases hr : (Spec.visits C b vs s1).1 with
            | ok u => rw [hr] at hi; exact absurd hi not_interrupted_ok
            | error y => rw [hr] at hi; rw [visits_later h1 hr]; exact interrupted_cast hi
          · exact Or.inr ⟨u, u1, visits_later h1 u2⟩

end AsyncZip
