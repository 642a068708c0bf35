import Verif.Proofs.CutStream
import Verif.Proofs.SampleCodec
import Verif.Props.Steady
/-!
# C69: streaming a file that was cut short
-/

namespace AsyncZip
open Spec Rd

theorem Visit.same : ∀ {v : Visit}, v.Buffered → SameVisit v v
  | .skip, _ => .skip
  | .read _, h => .read h h
  | .check _, h => .check h h
  | .part _ _, h => .part h h

theorem samePlan_self : ∀ {vs : List Visit}, (∀ v ∈ vs, v.Buffered) → SamePlan vs vs
  | [], _ => .nil
  | v :: _, h => .cons (Visit.same (h v List.mem_cons_self)) (samePlan_self fun v hv => h v (List.mem_cons_of_mem _ hv))

/-- A run that gets through ends like the run of the ideal source. -/
theorem visits_ideal {C : Codec} (hC : FrontToBack C) {b : Build} {vs : List Visit} (hv : ∀ v ∈ vs, v.Buffered) {s s' : RState}
    {x : List (ZipEntry × Option Bytes) × Bool} (h : visits C b vs s = (.ok x, s')) : Runs (visits C b vs) s.data s.pos (.ok x) s'.pos := by
  rcases (visits_total hC b vs hv).total s.data s.pos with ⟨y, p, h1, _⟩ | h1
  · obtain ⟨l, e⟩ := h1 []
    rcases InStep.visits C b (samePlan_self hv) (s := s) (s' := ⟨s.data, s.pos, none, []⟩) rfl rfl with g | g | ⟨_, g, _⟩ |
      ⟨a, t, a', t', g1, g2, g3, _, g5⟩
    · rw [h] at g; exact absurd g not_interrupted_ok
    · rw [e] at g; exact absurd g not_interrupted_ok
    · rw [h] at g; cases g
    · rw [h] at g1
      rw [e] at g2
      cases g1
      cases g2
      obtain rfl : x = y := g3
      rw [g5]
      exact h1
  · obtain ⟨e, s1, e1⟩ := h1 []
    rcases InStep.visits C b (samePlan_self hv) (s := s) (s' := ⟨s.data, s.pos, none, []⟩) rfl rfl with g | g | ⟨_, g, _⟩ |
      ⟨a, t, a', t', g1, g2, _⟩
    · rw [h] at g; exact absurd g not_interrupted_ok
    · exact absurd g (visits_calm C b vs _ rfl).1
    · rw [h] at g; cases g
    · rw [e1] at g2; cases g2

/-- What the ideal source decides. -/
theorem visits_as_ideal {C : Codec} {b : Build} {vs : List Visit} (hv : ∀ v ∈ vs, v.Buffered) (s : RState) (log : List RdEvent) :
    Interrupted (visits C b vs s).1 ∨ (visits C b vs s).1 = (visits C b vs ⟨s.data, s.pos, none, log⟩).1 := by
  rcases C65_streaming C b vs vs (samePlan_self hv) s ⟨s.data, s.pos, none, log⟩ rfl rfl with g | g | g
  · exact Or.inl g
  · exact absurd g (visits_calm C b vs _ rfl).1
  · exact Or.inr g

/-- C69, what comes before the cut: whatever the file, if the client got what it wanted from the first `n` bytes of it, it gets
the same from a file that ends there. -/
theorem C69_before (C : Codec) (hC : FrontToBack C) (b : Build) (vs : List Visit) (hv : ∀ v ∈ vs, v.Buffered) (s s' t : RState)
    (x : List (ZipEntry × Option Bytes) × Bool) (h : visits C b vs s = (.ok x, s')) (n : Nat) (h0 : s.pos ≤ n)
    (hn : n ≤ s.data.length) (hp : s'.pos ≤ n) (ht : t.data = s.data.take n) (htp : t.pos = s.pos) :
    Interrupted (visits C b vs t).1 ∨ (visits C b vs t).1 = .ok x := by
  rcases visits_cut hC b hn vs hv s.pos s'.pos x.1 x.2 h0 (visits_ideal hC hv h) with ⟨_, h1⟩ | ⟨h1, _⟩
  · obtain ⟨l, e⟩ := h1 []
    refine (visits_as_ideal hv t []).imp id fun g => ?_
    rw [g, ht, htp, e]
  · omega

/-- C69, the cut itself: if the client had gone beyond the cut, then in the file that was cut it does not succeed, except that
it may be given the entry in which the cut is, as the last one, with part of its data. -/
theorem C69_last_partial (C : Codec) (hC : FrontToBack C) (b : Build) (vs : List Visit) (hv : ∀ v ∈ vs, v.Buffered) (s s' t : RState)
    (xs : List (ZipEntry × Option Bytes)) (ended : Bool) (h : visits C b vs s = (.ok (xs, ended), s')) (n : Nat) (h0 : s.pos ≤ n)
    (hn : n ≤ s.data.length) (hp : n < s'.pos) (ht : t.data = s.data.take n) (htp : t.pos = s.pos) :
    Interrupted (visits C b vs t).1 ∨ (∃ e, (visits C b vs t).1 = .error e) ∨
      (ended = false ∧ ∃ z, (visits C b vs t).1 = .ok (xs.dropLast ++ [z], false)) := by
  rcases visits_cut hC b hn vs hv s.pos s'.pos xs ended h0 (visits_ideal hC hv h) with ⟨h1, _⟩ | ⟨_, h1 | ⟨rfl, z, h1⟩⟩
  · omega
  · obtain ⟨e, s1, e1⟩ := h1 []
    rcases visits_as_ideal (C := C) (b := b) hv t [] with g | g
    · exact Or.inl g
    · right; left
      exact ⟨e, by rw [g, ht, htp, e1]⟩
  · obtain ⟨l, e1⟩ := h1 []
    rcases visits_as_ideal (C := C) (b := b) hv t [] with g | g
    · exact Or.inl g
    · right; right
      exact ⟨rfl, z, by rw [g, ht, htp, e1]⟩

/-- C69: a client that goes on until it is told that there are no more entries is not deceived: if the file was cut before that
point, it gets an error, wherever the cut and whatever the file. -/
theorem C69_noticed (C : Codec) (hC : FrontToBack C) (b : Build) (vs : List Visit) (hv : ∀ v ∈ vs, v.Buffered) (s s' t : RState)
    (xs : List (ZipEntry × Option Bytes)) (h : visits C b vs s = (.ok (xs, true), s')) (n : Nat) (h0 : s.pos ≤ n)
    (hn : n ≤ s.data.length) (hp : n < s'.pos) (ht : t.data = s.data.take n) (htp : t.pos = s.pos) :
    Interrupted (visits C b vs t).1 ∨ ∃ e, (visits C b vs t).1 = .error e := by
  rcases C69_last_partial C hC b vs hv s s' t xs true h n h0 hn hp ht htp with g | g | ⟨g, _⟩
  · exact Or.inl g
  · exact Or.inr g
  · cases g

/-- C69, for archives that the crate wrote: a client with a plan for every entry and one more visit, by which it learns that
there are no more entries, gets from the first `n` bytes of the archive all that is in the archive, or an error. -/
theorem C69_all_or_nothing (C : Codec) (hC : Lawful C) (hF : FrontToBack C) (sink sink' : Sink) (zw : ZipWriter)
    (h : Created sink zw) (hs : sink.bytes = []) (ops : List Op) (evs : List Ev) (hc : (runArchive C zw ops evs).2.1 = .ok sink')
    (hfine : ∀ r ∈ (runArchive C zw ops evs).1, Fine r) (hst : ∀ op ∈ ops, ¬ StoredStream op)
    (hown : ∀ op ∈ ops, ∀ f ∈ userFields op, OwnField f) (hsize : sink'.bytes.length < 2 ^ 64)
    (ds : List Bytes) (hds : DataIn C ops (runArchive C zw ops evs).1 ds) (hne : ds ≠ []) (b : Build) :
    ∃ ls es, Program C ops (runArchive C zw ops evs).1 ls ∧ ls.length = ds.length ∧
      List.Forall₂ (fun l e => NextAs l e ∧
        (Constructed l.entry.filename → UnicodeAgrees l.entry → SameText l.entry.filename e.filename)) ls es ∧
      ∀ (vs : List Visit), (∀ v ∈ vs, v.Buffered) → (∀ q ∈ es.zip (vs.zip ds), q.2.1.Confirms q.1 q.2.2) →
        ds.length < vs.length → ∀ (n : Nat) (t : RState), t.data = sink'.bytes.take n → t.pos = 0 →
        Interrupted (visits C b vs t).1 ∨ (∃ e, (visits C b vs t).1 = .error e) ∨
          (visits C b vs t).1 = .ok ((es.zip (vs.zip ds)).map fun q => (q.1, q.2.1.sees q.2.2), true) := by
  obtain ⟨ls, es, h1, h2, h3, h4⟩ := C28_visits_partial C hC sink sink' zw h hs ops evs hc hfine hst hown hsize ds hds hne b
  refine ⟨ls, es, h1, h2, h3, fun vs hv hcf hvs n t ht hp => ?_⟩
  rcases h4 vs hv hcf ⟨sink'.bytes, 0, none, []⟩ rfl rfl with g | g
  · exact absurd g (visits_calm C b vs _ rfl).1
  rw [decide_eq_true hvs] at g
  cases hr : visits C b vs ⟨sink'.bytes, 0, none, []⟩ with
  | mk r s' =>
    rw [hr] at g
    cases g
    by_cases hn : n ≤ sink'.bytes.length
    · by_cases hp' : s'.pos ≤ n
      · exact (C69_before C hF b vs hv _ s' t _ hr n (Nat.zero_le _) hn hp' ht hp).imp id Or.inr
      · exact (C69_noticed C hF b vs hv _ s' t _ hr n (Nat.zero_le _) hn (by omega) ht hp).imp id Or.inl
    · rw [List.take_of_length_le (by omega)] at ht
      rcases h4 vs hv hcf t ht hp with g | g
      · exact Or.inl g
      · rw [decide_eq_true hvs] at g
        exact Or.inr (Or.inr g)

namespace Samples

theorem markDecode_front : ∀ x : Bytes, (markDecode x).ok = true → 0 < (markDecode x).used ∧ (markDecode x).used ≤ x.length ∧
    ∀ y : Bytes, y.take (markDecode x).used = x.take (markDecode x).used → markDecode y = markDecode x
  | [], h => by cases h
  | [t], h => by
    by_cases ht : t = 0
    · subst ht
      refine ⟨Nat.one_pos, Nat.le_refl _, fun y hy => ?_⟩
      match y, hy with
      | [], hy => cases hy
      | [u], hy => cases hy; rfl
      | u :: v :: r, hy => cases hy; rfl
    · unfold markDecode at h
      rw [if_neg ht] at h
      cases h
  | t :: x :: r, h => by
    by_cases h0 : t = 0
    · subst h0
      refine ⟨Nat.one_pos, by show 1 ≤ _; simp, fun y hy => ?_⟩
      match y, hy with
      | [], hy => cases hy
      | [u], hy => cases hy; rfl
      | u :: v :: r, hy => cases hy; rfl
    · by_cases h2 : t = 2
      · subst h2
        have e : ∀ u s, markDecode (2 :: u :: s) =
            ⟨(markDecode (u :: s)).out, (markDecode (u :: s)).used + 1, (markDecode (u :: s)).ok⟩ := fun u s => by
          rw [markDecode]; rfl
        rw [e] at h ⊢
        obtain ⟨g1, g2, g3⟩ := markDecode_front (x :: r) h
        refine ⟨Nat.succ_pos _, by rw [List.length_cons]; exact Nat.succ_le_succ g2, fun y hy => ?_⟩
        simp only [List.take_succ_cons] at hy
        match y, hy with
        | [], hy => cases hy
        | [u], hy =>
          simp only [List.take_succ_cons, List.take_nil, List.cons.injEq] at hy
          have := congrArg List.length hy.2
          rw [List.length_nil, List.length_take] at this
          simp only [List.length_cons] at this g2
          omega
        | u :: v :: r', hy =>
          simp only [List.take_succ_cons, List.cons.injEq] at hy
          obtain ⟨rfl, hy⟩ := hy
          rw [e, g3 (v :: r') hy]
      · have e : ∀ u s, markDecode (t :: u :: s) = ⟨u :: (markDecode s).out, (markDecode s).used + 2, (markDecode s).ok⟩ :=
          fun u s => by rw [markDecode, if_neg h0, if_neg h2]
        rw [e] at h ⊢
        obtain ⟨g1, g2, g3⟩ := markDecode_front r h
        refine ⟨Nat.succ_pos _, by simp only [List.length_cons]; omega, fun y hy => ?_⟩
        simp only [List.take_succ_cons] at hy
        match y, hy with
        | [], hy => cases hy
        | [u], hy => simp at hy
        | u :: v :: r', hy =>
          simp only [List.take_succ_cons, List.cons.injEq] at hy
          obtain ⟨rfl, rfl, hy'⟩ := hy
          rw [e, g3 r' hy']

theorem markCodec_front : FrontToBack markCodec := fun _ x h => (markDecode_front x h).2

/-- The entry of `one` as the streaming reader shows it. -/
def oneNext : ZipEntry :=
  { filename := ⟨.utf8, [97, 46, 116, 120, 116], none⟩, compression := .stored, compressionLevel := .default
    crc32 := 3633523372, uncompressedSize := 2, compressedSize := 2, attributeCompatibility := .unix
    lastModificationDate := ⟨20514, 6275⟩, internalFileAttribute := 0, externalFileAttribute := 0
    extraFields := [.unknown ⟨0x7799, 2, [1, 2]⟩], comment := ⟨.utf8, [], none⟩, dataDescriptor := false }

theorem one_header (b : Build) {data : Bytes} (h : data.take 41 = one.take 41) : Runs (lfh b) data 0 (.ok (some oneNext)) 41 := by
  have hw : ∀ p k, p + k ≤ 41 → (data.drop p).take k = (one.drop p).take k := fun p k hk => by
    rw [← window_take (data := data) hk, ← window_take (data := one) hk, h]
  obtain ⟨p, h1, h2⟩ := Runs.lfhAt (b := b) (data := data) (pos := 0) (name := [97, 46, 116, 120, 116])
    (xb := [153, 119, 2, 0, 1, 2]) (hb := (one.drop 4).take 26) ((hw _ _ (by omega)).trans (by decide +kernel))
    (hw _ _ (by omega)) (by decide +kernel)
    ((hw _ _ (by decide +kernel)).trans (by decide +kernel)) ((hw _ _ (by decide +kernel)).trans (by decide +kernel))
  have ho : lfhOutcome b (LocalFileHeader.ofBytes ((one.drop 4).take 26)) [97, 46, 116, 120, 116]
      [153, 119, 2, 0, 1, 2] = .ok (some oneNext) := by
    unfold lfhOutcome
    rw [show Compression.tryFrom (LocalFileHeader.ofBytes ((one.drop 4).take 26)).compression = .ok .stored by decide +kernel,
      show (LocalFileHeader.ofBytes ((one.drop 4).take 26)).uncompressedSize = 2 by decide +kernel,
      show (LocalFileHeader.ofBytes ((one.drop 4).take 26)).compressedSize = 2 by decide +kernel, oneExtra]
    rfl
  have hp := h2 _ ho
  rw [ho] at h1
  subst hp
  exact h1

/-- Reading the entry of `one`, or as much of it as there is. -/
theorem one_visit (b : Build) {data : Bytes} (h : data.take 41 = one.take 41) :
    Runs (visit markCodec b (.read 9)) data 0 (.ok (some (oneNext, some (window data 41 2)))) (41 + (window data 41 2).length) := by
  rw [visit_eq]
  have hc := consume_runs (C := markCodec) (m := .stored) (len := 2) (crc := oneNext.crc32) (v := .read 9) (data := data) (pos := 41)
    (Nat.succ_pos 8) rfl (by rintro ⟨k, hk, _⟩; cases hk)
  exact Runs.bind (one_header b h) (Runs.bind hc (Runs.bind Runs.pure Runs.pure))

theorem one_visits (b : Build) :
    Runs (visits markCodec b [.read 9, .skip]) one 0 (.ok ([(oneNext, some [104, 105])], true)) 47 := by
  have h1 := one_visit b (data := one) rfl
  rw [show window one 41 2 = [104, 105] by decide +kernel] at h1
  refine Runs.bind h1 (Runs.bind (Runs.bind (Runs.bind (Runs.nextNone (rest := one.drop 47) ?_) Runs.pure) Runs.pure) Runs.pure)
  decide +kernel

end Samples

/-- C69, concretely: an archive of one entry, to be read to the end; the end is announced at byte 47. -/
example (b : Build) (n : Nat) (hn : n < 47) (t : RState) (ht : t.data = Samples.one.take n) (hp : t.pos = 0) :
    Interrupted (visits Samples.markCodec b [.read 9, .skip] t).1 ∨
      ∃ e, (visits Samples.markCodec b [.read 9, .skip] t).1 = .error e := by
  obtain ⟨l, h⟩ := Samples.one_visits b []
  refine C69_noticed Samples.markCodec Samples.markCodec_front b [.read 9, .skip] ?_ _ _ t _ h n (Nat.zero_le _) ?_ hn ht hp
  · simp only [List.forall_mem_cons]
    exact ⟨Nat.succ_pos 8, trivial, fun _ h => by cases h⟩
  · have : Samples.one.length = 125 := by decide +kernel
    show n ≤ Samples.one.length
    omega

/-- C69, concretely: an archive of three entries, one of them streamed; reading all of it from any beginning of it gives the three
entries or an error. -/
example (b : Build) : ∃ e1 e2 e3 : ZipEntry, ∀ (n : Nat) (t : RState), t.data = Samples.tourBytes.take n → t.pos = 0 →
    Interrupted (visits Samples.markCodec b [.part 1 5, .read 2, .skip, .skip] t).1 ∨
      (∃ e, (visits Samples.markCodec b [.part 1 5, .read 2, .skip, .skip] t).1 = .error e) ∨
      (visits Samples.markCodec b [.part 1 5, .read 2, .skip, .skip] t).1 =
        .ok ([(e1, some [104]), (e2, some [7, 8, 9]), (e3, none)], true) := by
  have hr := Samples.tour_archive.1
  obtain ⟨ls, es, _, h2, h3, h4⟩ := C69_all_or_nothing Samples.markCodec Samples.markCodec_lawful Samples.markCodec_front ⟨[], 0, 0⟩
    ⟨Samples.tourBytes, 1, 0⟩ Samples.fresh .new rfl Samples.tour Samples.eager Samples.tour_archive.2
    (by rw [hr]
        simp only [List.forall_mem_cons]
        exact ⟨Or.inl rfl, trivial, Or.inl rfl, Or.inl rfl, fun _ h => by cases h⟩)
    (by rw [Samples.tour]
        simp only [List.forall_mem_cons]
        exact ⟨id, id, (fun h => by cases h), id, fun _ h => by cases h⟩)
    (by rw [Samples.tour]
        simp only [List.forall_mem_cons]
        exact ⟨(fun _ h => by cases h), (fun _ h => by cases h), (fun _ h => by cases h), (fun _ h => by cases h), fun _ h => by cases h⟩)
    (by decide +kernel) [[104, 105], [7, 8, 9], [5]] (by rw [hr]; exact Samples.tour_data) (by simp) b
  have hl := h3.length_eq.symm.trans h2
  match es, hl with
  | [e1, e2, e3], _ =>
    refine ⟨e1, e2, e3, fun n t ht hp => h4 _ ?_ ?_ (by decide) n t ht hp⟩
    · simp only [List.forall_mem_cons]
      exact ⟨Nat.succ_pos 4, Nat.succ_pos 1, trivial, trivial, fun _ h => by cases h⟩
    · simp only [List.zip_cons_cons, List.forall_mem_cons]
      exact ⟨(fun _ h => by cases h), (fun _ h => by cases h), (fun _ h => by cases h), fun _ h => by cases h⟩

/-- C69 does not hold of the entry in which the cut is: the streaming reader does not compare the number of bytes with the
number declared. Here the entry has two bytes and the file ends after the first; the client reads that one byte, is told that
this was all, and calls `done`, which does not complain. -/
theorem C69_short_fails (b : Build) : ∃ e : ZipEntry, e.uncompressedSize = 2 ∧ e.compressedSize = 2 ∧
    (∀ s : RState, s.data = Samples.one → s.pos = 0 → Interrupted (visits Samples.markCodec b [.read 9] s).1 ∨
      (visits Samples.markCodec b [.read 9] s).1 = .ok ([(e, some [104, 105])], false)) ∧
    ∀ s : RState, s.data = Samples.one.take 42 → s.pos = 0 → Interrupted (visits Samples.markCodec b [.read 9] s).1 ∨
      (visits Samples.markCodec b [.read 9] s).1 = .ok ([(e, some [104])], false) := by
  have hv : ∀ v ∈ [Visit.read 9], v.Buffered := by
    simp only [List.forall_mem_cons]
    exact ⟨Nat.succ_pos 8, fun _ h => by cases h⟩
  have key : ∀ {data : Bytes} {d : Bytes}, data.take 41 = Samples.one.take 41 → window data 41 2 = d →
      ∀ s : RState, s.data = data → s.pos = 0 → Interrupted (visits Samples.markCodec b [.read 9] s).1 ∨
        (visits Samples.markCodec b [.read 9] s).1 = .ok ([(Samples.oneNext, some d)], false) := by
    intro data d h hd s hs hp
    have h1 := Samples.one_visit b h
    rw [hd] at h1
    have h2 : Runs (visits Samples.markCodec b [.read 9]) data 0 (.ok ([(Samples.oneNext, some d)], false)) (41 + d.length) :=
      Runs.bind h1 (Runs.bind Runs.pure Runs.pure)
    obtain ⟨l, e⟩ := h2 []
    refine (visits_as_ideal hv s []).imp id fun g => ?_
    rw [g, hs, hp, e]
  exact ⟨Samples.oneNext, rfl, rfl, key rfl (by decide +kernel), key (by decide +kernel) (by decide +kernel)⟩

end AsyncZip
