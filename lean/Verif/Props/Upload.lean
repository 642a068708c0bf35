import Verif.Proofs.Upload
import Verif.Proofs.CliRestore
import Verif.Props.Size
import Verif.Props.ExtractAll
import Verif.Props.Visits
import Verif.Samples.ProgramRuns
/-!
# What the upload example stores

C104, about `examples/actix_multipart.rs`.
-/

namespace AsyncZip
open Spec Wr

/-- C104, what is stored: if the program comes to its end, whatever the file did meanwhile, then every part of the request came
through, and the archive is what a fresh writer makes of them: one entry for each, in the order of the request, under the name given,
cleaned up, or one made up, with the data of the part, however it came in pieces. Every call went well, and so did making the file and shutting it down. -/
theorem C104_stored (C : Codec) (san : RString → RString) (uuid : Nat → RString) (body : List (Option Part)) (create shutdown : OsEv)
    (evs : Nat → PartEvs) (closing : List Ev) (file : Option Sink)
    (h : createArchive C san uuid body create shutdown evs closing = (.done (), file)) :
    ∃ (parts : List (Option RString × List Bytes)) (sink : Sink) (ops : List Op), Arrived body parts ∧ file = some sink ∧
      (runArchive C (.new ⟨[], 0, 0⟩) ops closing).2.1 = .ok sink ∧
      UploadCalls san uuid 0 parts ops (runArchive C (.new ⟨[], 0, 0⟩) ops closing).1 ∧ create = .go ∧ shutdown = .go := by
  unfold createArchive at h
  cases create with
  | fail n => cases h
  | go =>
    obtain ⟨parts, ops, rest, h1, _, h3, _, h5⟩ := uploadLoop_ops C san uuid evs body 0 (.new ⟨[], 0, 0⟩)
    simp only at h
    rcases hl : uploadLoop C san uuid evs body 0 (.new ⟨[], 0, 0⟩) with ⟨q, zw⟩
    rw [hl] at h h3 h5
    cases q with
    | refused => cases h
    | panic => cases h
    | running => cases h
    | done u =>
      obtain ⟨h6, rfl⟩ := h5 rfl
      rw [List.append_nil] at h3
      simp only at h h3
      rcases hc : closeArchive { zw, evs := closing } with ⟨r, s⟩
      rw [hc] at h
      cases r with
      | error e => cases e <;> cases h
      | ok sink =>
        refine ⟨parts, sink, ops, h6, (Prod.mk.inj h).2.symm, ?_, ?_, rfl, ?_⟩
        · unfold runArchive
          rcases hr : runOps C (.new ⟨[], 0, 0⟩) ops with ⟨rs, zw'⟩
          rw [hr] at h3
          obtain rfl : zw' = zw := h3
          simp only [hc]
        · exact h1
        · cases shutdown with
          | go => rfl
          | fail n => cases h

/-- C104, what is left behind: however the program ends, if it made a file, then the file has what a fresh writer makes of the first
parts of the request, all of which came through, and at most one more call: nothing is added to it unless all parts came through. -/
theorem C104_left (C : Codec) (san : RString → RString) (uuid : Nat → RString) (body : List (Option Part)) (create shutdown : OsEv)
    (evs : Nat → PartEvs) (closing : List Ev) (out : Packing Unit) (sink : Sink)
    (h : createArchive C san uuid body create shutdown evs closing = (out, some sink)) :
    ∃ (parts : List (Option RString × List Bytes)) (ops rest : List Op),
      (parts.map fun x => some (Part.mk x.1 (x.2.map some))) <+: body ∧
      UploadCalls san uuid 0 parts ops (runOps C (.new ⟨[], 0, 0⟩) ops).1 ∧ rest.length ≤ 1 ∧
      (sink = (runOps C (.new ⟨[], 0, 0⟩) (ops ++ rest)).2.writer.sink ∨
        (Arrived body parts ∧ rest = [] ∧ ((runArchive C (.new ⟨[], 0, 0⟩) ops closing).2.1 = .ok sink ∨
          ∃ e, (runArchive C (.new ⟨[], 0, 0⟩) ops closing).2.1 = .error e ∧
            sink = (runArchive C (.new ⟨[], 0, 0⟩) ops closing).2.2.writer.sink))) := by
  unfold createArchive at h
  cases create with
  | fail n => cases h
  | go =>
    obtain ⟨parts, ops, rest, h1, h2, h3, h4, h5⟩ := uploadLoop_ops C san uuid evs body 0 (.new ⟨[], 0, 0⟩)
    simp only at h
    rcases hl : uploadLoop C san uuid evs body 0 (.new ⟨[], 0, 0⟩) with ⟨q, zw⟩
    rw [hl] at h h3 h5
    simp only at h3
    refine ⟨parts, ops, rest, h2, h1, h4, ?_⟩
    cases q with
    | refused => exact Or.inl (by rw [h3]; cases h; rfl)
    | panic => exact Or.inl (by rw [h3]; cases h; rfl)
    | running => exact Or.inl (by rw [h3]; cases h; rfl)
    | done u =>
      obtain ⟨h6, rfl⟩ := h5 rfl
      rw [List.append_nil] at h3
      refine Or.inr ⟨h6, rfl, ?_⟩
      simp only at h
      rcases hc : closeArchive { zw, evs := closing } with ⟨r, s⟩
      rw [hc] at h
      have e : runArchive C (.new ⟨[], 0, 0⟩) ops closing = ((runOps C (.new ⟨[], 0, 0⟩) ops).1, r, s.zw) := by
        unfold runArchive
        rcases hr : runOps C (.new ⟨[], 0, 0⟩) ops with ⟨rs, zw'⟩
        rw [hr] at h3
        obtain rfl : zw' = zw := h3
        simp only [hc]
      rw [e]
      cases r with
      | ok sink' => exact Or.inl (by rw [Option.some.inj (Prod.mk.inj h).2])
      | error x => exact Or.inr ⟨x, rfl, (Option.some.inj (Prod.mk.inj h).2).symm⟩

theorem arrived_inj {body : List (Option Part)} {parts parts' : List (Option RString × List Bytes)} (h : Arrived body parts)
    (h' : Arrived body parts') : parts = parts' := by
  have e : (parts.map fun x => some (Part.mk x.1 (x.2.map some))) = parts'.map fun x => some (Part.mk x.1 (x.2.map some)) := by
    rw [← show body = _ from h, ← show body = _ from h']
  refine List.map_injective_iff.2 ?_ e
  intro x y hxy
  injection Option.some.inj hxy with k1 k2
  exact Prod.ext k1 (List.map_injective_iff.2 (fun _ _ q => Option.some.inj q) k2)

/-- C104, when it succeeds: if the request comes through, the names are not too long for the format and the file takes what it is
given, `c + 1` bytes at a time, then the program comes to its end. -/
theorem C104_completes (C : Codec) (san : RString → RString) (uuid : Nat → RString) (body : List (Option Part))
    (parts : List (Option RString × List Bytes)) (hb : Arrived body parts)
    (hn : ∀ (i : Nat) (x : Option RString × List Bytes), parts[i]? = some x → (entryName san (uuid i) x.1).length ≤ 65481) (c : Nat) :
    ∃ (evs : Nat → PartEvs) (closing : List Ev) (sink : Sink),
      (∀ j, Takes c (evs j).opening ∧ (∀ w ∈ (evs j).writes, Takes c w) ∧ Takes c (evs j).closing) ∧ Takes c closing ∧
      createArchive C san uuid body .go .go evs closing = (.done (), some sink) := by
  obtain ⟨evs, h1, zw, h2⟩ := uploadLoop_takes C c san uuid parts 0 (.new ⟨[], 0, 0⟩) rfl fun i x hx => by
    rw [Nat.zero_add]
    exact hn i x hx
  rw [← hb] at h2
  obtain ⟨parts', ops, rest, g1, _, g3, _, g5⟩ := uploadLoop_ops C san uuid evs body 0 (.new ⟨[], 0, 0⟩)
  rw [h2] at g3 g5
  obtain ⟨g6, rfl⟩ := g5 rfl
  rw [List.append_nil] at g3
  simp only at g3
  obtain rfl := arrived_inj g6 hb
  obtain ⟨k, r, zw', k1, k2⟩ := WCompletes.closeArchive (c := c) zw
  have k2 := k2 0
  have e : (runArchive C (.new ⟨[], 0, 0⟩) ops (List.replicate (k + 0) (.accept (c + 1)))).2.1 = r := by
    unfold runArchive
    rcases hr : runOps C (.new ⟨[], 0, 0⟩) ops with ⟨rs, zw''⟩
    rw [hr] at g3
    obtain rfl : zw'' = zw := g3
    simp only [k2]
  have hs := (C52_program C ⟨[], 0, 0⟩ (.new ⟨[], 0, 0⟩) .new rfl ops (fun op hop => ?_) (List.replicate (k + 0) (.accept (c + 1)))).2
    (by rw [e]; exact Own.completed k1)
  · obtain ⟨sink, hs⟩ := hs
    rw [e] at hs
    subst hs
    refine ⟨evs, List.replicate (k + 0) (.accept (c + 1)), sink, h1, fun e he => List.eq_of_mem_replicate he, ?_⟩
    unfold createArchive
    simp only
    rw [h2]
    simp only
    rw [k2]
  · obtain ⟨i, hi⟩ := List.mem_iff_getElem?.1 hop
    have hlt : i < parts'.length := by
      rw [← g1.count]
      exact (List.getElem?_eq_some_iff.1 hi).1
    obtain ⟨op', r', q1, _, evs1, acts, evs2, rs, rfl, _, _, _, q7⟩ := g1.each i _ (List.getElem?_eq_getElem hlt)
    rw [q1] at hi
    cases hi
    refine upload_sound ?_ _ _ q7
    rw [Nat.zero_add]
    exact hn i _ (List.getElem?_eq_getElem hlt)

/-! ## What can be said of the calls -/

theorem UploadCalls_at {san : RString → RString} {uuid : Nat → RString} {k : Nat} {parts : List (Option RString × List Bytes)}
    {ops : List Op} {rs : List OpResult} (h : UploadCalls san uuid k parts ops rs) {i : Nat} {op : Op} {r : OpResult}
    (ho : ops[i]? = some op) (hr : rs[i]? = some r) :
    ∃ x, parts[i]? = some x ∧ UploadCall (entryName san (uuid (k + i)) x.1) x.2.flatten op r := by
  have hlt : i < parts.length := by
    rw [← h.count]
    exact (List.getElem?_eq_some_iff.1 ho).1
  obtain ⟨op', r', h1, h2, h3⟩ := h.each i _ (List.getElem?_eq_getElem hlt)
  rw [ho] at h1
  rw [hr] at h2
  cases h1
  cases h2
  exact ⟨_, List.getElem?_eq_getElem hlt, h3⟩

theorem UploadCalls_op {san : RString → RString} {uuid : Nat → RString} {k : Nat} {parts : List (Option RString × List Bytes)}
    {ops : List Op} {rs : List OpResult} (h : UploadCalls san uuid k parts ops rs) {op : Op} (ho : op ∈ ops) :
    ∃ name evs acts evs', op = .stream (ZipEntry.new ⟨.utf8, name, none⟩ .deflate) false evs acts (.close evs') := by
  obtain ⟨i, hi⟩ := List.mem_iff_getElem?.1 ho
  have hlt : i < parts.length := by
    rw [← h.count]
    exact (List.getElem?_eq_some_iff.1 hi).1
  obtain ⟨op', r', h1, _, evs, acts, evs', rs, rfl, _⟩ := h.each i _ (List.getElem?_eq_getElem hlt)
  rw [hi] at h1
  cases h1
  exact ⟨_, _, _, _, rfl⟩

theorem UploadCalls_result {san : RString → RString} {uuid : Nat → RString} {k : Nat} {parts : List (Option RString × List Bytes)}
    {ops : List Op} {rs : List OpResult} (h : UploadCalls san uuid k parts ops rs) {r : OpResult} (hr : r ∈ rs) :
    ∃ ns, r = .stream (.ok ()) ns (some (.ok ())) := by
  obtain ⟨i, hi⟩ := List.mem_iff_getElem?.1 hr
  have hlt : i < parts.length := by
    rw [← h.results]
    exact (List.getElem?_eq_some_iff.1 hi).1
  obtain ⟨op', r', _, h1, _, _, _, ns, _, rfl, _⟩ := h.each i _ (List.getElem?_eq_getElem hlt)
  rw [hi] at h1
  cases h1
  exact ⟨_, rfl⟩

theorem entryName_valid {san : RString → RString} {made : RString} {given : Option RString} :
    utf8Valid (entryName san made given) = true := RString.valid _

theorem streams_comment : ∀ {ops : List Op},
    (∀ op ∈ ops, ∃ name evs acts evs', op = .stream (ZipEntry.new ⟨.utf8, name, none⟩ .deflate) false evs acts (.close evs')) →
    finalComment none ops = none
  | [], _ => rfl
  | op :: ops, h => by
    obtain ⟨_, _, _, _, rfl⟩ := h op List.mem_cons_self
    exact streams_comment (ops := ops) fun x hx => h x (List.mem_cons_of_mem _ hx)

theorem program_mem {C : Codec} {ops : List Op} {rs : List OpResult} {ls : List Listing} (h : Program C ops rs ls) :
    ∀ l ∈ ls, ∃ (i : Nat) (op : Op) (r : OpResult), ops[i]? = some op ∧ rs[i]? = some r ∧ Asked C op r l := by
  induction h with
  | nil => exact fun l hl => (by cases hl)
  | listed ha hs ih =>
    intro l hl
    rcases List.mem_cons.1 hl with rfl | hl
    · exact ⟨0, _, _, rfl, rfl, ha⟩
    · obtain ⟨i, op, r, h1, h2, h3⟩ := ih l hl
      exact ⟨i + 1, op, r, h1, h2, h3⟩
  | other hn hs ih =>
    intro l hl
    obtain ⟨i, op, r, h1, h2, h3⟩ := ih l hl
    exact ⟨i + 1, op, r, h1, h2, h3⟩

theorem packs_of_index {C : Codec} : ∀ {items : List (Bytes × Bytes)} {ops : List Op} {rs : List OpResult},
    ops.length = items.length → rs.length = items.length →
    (∀ (i : Nat) (x : Bytes × Bytes), items[i]? = some x → utf8Valid x.1 = true ∧ x.1 ≠ [] ∧
      ∃ op r, ops[i]? = some op ∧ rs[i]? = some r ∧ UploadCall x.1 x.2 op r) → Packs C ops rs items
  | [], ops, rs, h1, h2, _ => by
    obtain rfl := List.length_eq_zero_iff.1 h1
    obtain rfl := List.length_eq_zero_iff.1 h2
    exact .nil
  | x :: items, ops, rs, h1, h2, h => by
    cases ops with
    | nil => cases h1
    | cons op ops =>
      cases rs with
      | nil => cases h2
      | cons r rs =>
        obtain ⟨hv, hne, op', r', e1, e2, hc⟩ := h 0 x rfl
        cases e1
        cases e2
        obtain ⟨evs, acts, evs', ns, rfl, rfl, hok, hacc, _⟩ := hc
        refine .listed (e := ZipEntry.new ⟨.utf8, x.1, none⟩ .deflate) rfl rfl rfl hne (Constructed.ofString ⟨x.1, hv⟩)
          ⟨fun i h => (by cases h), fun i h => (by cases h)⟩ (hacc ▸ .stream _ _ _ _ _ _ (Or.inr hok))
          (packs_of_index (Nat.succ.inj h1) (Nat.succ.inj h2) fun i y hy => ?_)
        exact h (i + 1) y hy

/-- An archive made of an upload says what it means if its end record is the last thing that looks like one and it is not beyond the
reach of 64 bits. -/
theorem upload_legible {C : Codec} {san : RString → RString} {uuid : Nat → RString} {parts : List (Option RString × List Bytes)}
    {ops : List Op} {closing : List Ev} {sink : Sink} (hc : (runArchive C (.new ⟨[], 0, 0⟩) ops closing).2.1 = .ok sink)
    (hu : UploadCalls san uuid 0 parts ops (runArchive C (.new ⟨[], 0, 0⟩) ops closing).1)
    (hlast : LastEnd sink.bytes (sink.bytes.length - 22)) (hsize : sink.bytes.length < 2 ^ 64) :
    Legible ops (runArchive C (.new ⟨[], 0, 0⟩) ops closing).1 (runArchive C (.new ⟨[], 0, 0⟩) ops closing).2.2.isZip64 sink.bytes := by
  have hcm : archiveComment ops = [] := by
    unfold archiveComment
    rw [streams_comment fun op ho => UploadCalls_op hu ho]
  have hnone : ∀ op ∈ ops, userFields op = [] := fun op ho => by
    obtain ⟨_, _, _, _, rfl⟩ := UploadCalls_op hu ho
    rfl
  refine ⟨fun op ho f hf => ?_, by rw [hcm]; exact Nat.zero_le _, by rw [hcm]; exact hlast, fun hl => ?_, fun r hr => ?_, hsize⟩
  · rw [hnone op ho] at hf
    cases hf
  · obtain ⟨ls, hp, hlen, hz⟩ := C87_length C ⟨[], 0, 0⟩ sink (.new ⟨[], 0, 0⟩) .new rfl ops closing hc
      (fun r hr => by obtain ⟨ns, rfl⟩ := UploadCalls_result hu hr; exact Or.inl rfl)
      (fun op ho f hf => by rw [hnone op ho] at hf; cases hf)
    refine hz.2 ?_
    cases ls with
    | nil =>
      exfalso
      rw [hcm] at hl hlen
      have : sink.bytes.length = 22 := hlen
      have h20 := hl.1
      unfold endPosition at h20
      rw [this] at h20
      exact absurd h20 (by decide)
    | cons l ls =>
      refine Or.inr (Or.inl ⟨rfl, Or.inl ⟨l, List.mem_cons_self, Or.inl ?_⟩⟩)
      obtain ⟨i, op, r, h1, h2, ha⟩ := program_mem hp l List.mem_cons_self
      obtain ⟨x, _, evs, acts, evs', ns, rfl, rfl, _⟩ := UploadCalls_at hu h1 h2
      cases ha
      rfl
  · obtain ⟨ns, rfl⟩ := UploadCalls_result hu hr
    intro h
    cases h

theorem upload_small {C : Codec} {san : RString → RString} {uuid : Nat → RString} {parts : List (Option RString × List Bytes)}
    {ops : List Op} {rs : List OpResult} {n : Nat} (hu : UploadCalls san uuid 0 parts ops rs)
    (h : n ≤ 0xFFFFFFFF ∨ ∀ x ∈ parts, UInt64.ofNat x.2.flatten.length ≠ 0xFFFFFFFF ∧
      ∀ z, StoredAs C .deflate .default x.2.flatten z → UInt64.ofNat z.length ≠ 0xFFFFFFFF) :
    n ≤ 0xFFFFFFFF ∨ ∀ ls, Program C ops rs ls → ∀ l ∈ ls, l.us ≠ 0xFFFFFFFF ∧ l.cs ≠ 0xFFFFFFFF := by
  refine h.imp id fun h ls hp l hl => ?_
  obtain ⟨i, op, r, h1, h2, ha⟩ := program_mem hp l hl
  obtain ⟨x, hx, evs, acts, evs', ns, rfl, rfl, hok, hacc, _⟩ := UploadCalls_at hu h1 h2
  obtain ⟨k1, k2⟩ := h x (List.mem_of_getElem? hx)
  cases ha with
  | stream _ _ _ _ _ _ fed stored hl hst hfed =>
    rw [hfed (Or.inr hok), hacc] at hst
    exact ⟨by rw [hacc]; exact k1, k2 stored hst⟩

/-- C104, what can be read: the archive of an upload opens, shows as many entries as there were parts, in their order and under their
names, and each entry reads back as the data of its part. Partial as reading is: the bytes of the end record must not look like another
end record, and past 4 GiB no size may be just the mark that stands for a ZIP64 size. -/
theorem C104_read_partial (C : Codec) (hC : Lawful C) (san : RString → RString) (uuid : Nat → RString) (body : List (Option Part))
    (parts : List (Option RString × List Bytes)) (hb : Arrived body parts) (create shutdown : OsEv) (evs : Nat → PartEvs)
    (closing : List Ev) (sink : Sink) (h : createArchive C san uuid body create shutdown evs closing = (.done (), some sink))
    (hlast : LastEnd sink.bytes (sink.bytes.length - 22)) (hsize : sink.bytes.length < 2 ^ 64)
    (hsmall : sink.bytes.length ≤ 0xFFFFFFFF ∨ ∀ x ∈ parts, UInt64.ofNat x.2.flatten.length ≠ 0xFFFFFFFF ∧
      ∀ z, StoredAs C .deflate .default x.2.flatten z → UInt64.ofNat z.length ≠ 0xFFFFFFFF)
    (b : Build) (hroom : parts.length ≤ b.maxVecEntries) :
    ∃ f : ZipFile, (∀ s : RState, s.data = sink.bytes → Rd.Interrupted (openFile b s).1 ∨ (openFile b s).1 = .ok f) ∧
      f.entries.length = parts.length ∧
      ∀ (i : Nat) (x : Option RString × List Bytes), parts[i]? = some x → ∃ e, f.entries[i]? = some e ∧
        e.entry.filename = ⟨.utf8, entryName san (uuid i) x.1, none⟩ ∧
        ∀ chunk, 0 < chunk → ∀ s : RState, s.data = sink.bytes →
          Rd.Interrupted (checkedRead C f i chunk s).1 ∨ (checkedRead C f i chunk s).1 = .ok x.2.flatten := by
  obtain ⟨parts', sink', ops, hb', hf, hc, hu, _⟩ := C104_stored C san uuid body create shutdown evs closing _ h
  cases hf
  obtain rfl := arrived_inj hb' hb
  have hall : ∀ r ∈ (runArchive C (.new ⟨[], 0, 0⟩) ops closing).1, isListed r = true := fun r hr => by
    obtain ⟨ns, rfl⟩ := UploadCalls_result hu hr
    rfl
  have hcount : ∀ k, k ≤ parts'.length → ((runArchive C (.new ⟨[], 0, 0⟩) ops closing).1.take k).countP isListed = k := fun k hk => by
    rw [List.countP_eq_length.2 fun r hr => hall r (List.mem_of_mem_take hr), List.length_take, hu.results]
    exact Nat.min_eq_left hk
  have htotal : (runArchive C (.new ⟨[], 0, 0⟩) ops closing).1.countP isListed = parts'.length := by
    rw [List.countP_eq_length.2 hall, hu.results]
  obtain ⟨f, h1, h2, _, h4⟩ := listed_read hC .new rfl hc (upload_legible hc hu hlast hsize) (upload_small hu hsmall) b
    (by rw [htotal]; exact hroom)
  refine ⟨f, h1, by rw [h2, htotal], fun i x hx => ?_⟩
  obtain ⟨op, r, g1, g2, ev, acts, ev', ns, rfl, rfl, hok, hacc, _⟩ := hu.each i x hx
  obtain ⟨l, off, e, ha, he, _, hname, _, _, hread⟩ := h4 i _ _ g1 g2 rfl
  rw [hcount i (Nat.le_of_lt (List.getElem?_eq_some_iff.1 hx).1)] at he hread
  refine ⟨e, he, ?_, fun chunk hch s hs => ?_⟩
  · cases ha with
    | stream _ _ _ _ _ _ fed stored hl hst hfed =>
      rw [hname, nameRead_eq, Nat.zero_add]
      show ZipString.new (entryName san (uuid i) x.1) .utf8 = _
      unfold ZipString.new
      simp only
      rw [if_pos entryName_valid]
  · have := hread (fun h => (by cases h)) _ (.stream _ _ _ _ _ _ (Or.inr hok)) chunk hch s hs
    rw [hacc] at this
    exact this

/-- The entries of an upload as names and data. -/
def uploaded (san : RString → RString) (uuid : Nat → RString) (parts : List (Option RString × List Bytes)) : List (Bytes × Bytes) :=
  parts.mapIdx fun i x => (entryName san (uuid i) x.1, x.2.flatten)

/-- C104, what the extraction example makes of it: all parts come out, each in the file its name says, and nothing else does, if their
names are such that the files can stand beside one another. Partial as `C104_read_partial` is. -/
theorem C104_unpacked_partial (C : Codec) (hC : Lawful C) (san : RString → RString) (uuid : Nat → RString) (body : List (Option Part))
    (parts : List (Option RString × List Bytes)) (hb : Arrived body parts) (create shutdown : OsEv) (evs : Nat → PartEvs)
    (closing : List Ev) (sink : Sink) (h : createArchive C san uuid body create shutdown evs closing = (.done (), some sink))
    (hlast : LastEnd sink.bytes (sink.bytes.length - 22)) (hsize : sink.bytes.length < 2 ^ 64)
    (hsmall : sink.bytes.length ≤ 0xFFFFFFFF ∨ ∀ x ∈ parts, UInt64.ofNat x.2.flatten.length ≠ 0xFFFFFFFF ∧
      ∀ z, StoredAs C .deflate .default x.2.flatten z → UInt64.ofNat z.length ≠ 0xFFFFFFFF)
    (b : Build) (hmany : parts.length ≤ b.maxVecEntries)
    {clean : Bytes → Bytes} (hclean : Sanitizes clean) {out : List Bytes} (ho : ∀ c ∈ out, PathPart c) (fs : FS) (hg : Grown fs)
    (hr : Rooted fs out) (hnamed : ∀ x ∈ uploaded san uuid parts, x.1 ≠ [])
    (hroom : ∀ x ∈ uploaded san uuid parts, Room clean out fs x.1)
    (hapart : (uploaded san uuid parts).Pairwise fun x y => Apart clean x.1 y.1) (pos : Nat) (log : List RdEvent) :
    ∃ d', unzipFile b C clean (render out) ⟨sink.bytes, pos, none, log⟩ ⟨fs, []⟩ = (true, d') ∧ Contained out fs d'.fs ∧
      OnlyNew out ((uploaded san uuid parts).map fun x => target clean x.1) fs d'.fs ∧
      ∀ x ∈ uploaded san uuid parts,
        d'.fs (out ++ target clean x.1) = some (if x.1.getLast? = some 0x2F then .dir else .file x.2) := by
  obtain ⟨parts', sink', ops, hb', hf, hc, hu, _⟩ := C104_stored C san uuid body create shutdown evs closing _ h
  cases hf
  obtain rfl := arrived_inj hb' hb
  have hlen : (uploaded san uuid parts').length = parts'.length := List.length_mapIdx
  refine C82_packed C hC ⟨[], 0, 0⟩ sink (.new ⟨[], 0, 0⟩) .new rfl ops closing hc (upload_legible hc hu hlast hsize)
    (upload_small hu hsmall) (fun h => (by cases h)) (uploaded san uuid parts')
    (packs_of_index (by rw [hlen]; exact hu.count) (by rw [hlen]; exact hu.results) fun i x hx => ?_) b (by rw [hlen]; exact hmany) hclean
    ho fs hg hr hroom hapart pos log
  have hm := hnamed x (List.mem_of_getElem? hx)
  unfold uploaded at hx
  rw [List.getElem?_mapIdx] at hx
  cases hp : parts'[i]? with
  | none => rw [hp] at hx; cases hx
  | some y =>
    rw [hp] at hx
    cases hx
    refine ⟨entryName_valid, hm, ?_⟩
    have := hu.each i y hp
    rw [Nat.zero_add] at this
    exact this

theorem data_of_index {C : Codec} : ∀ {ds : List Bytes} {ops : List Op} {rs : List OpResult},
    ops.length = ds.length → rs.length = ds.length →
    (∀ (i : Nat) (d : Bytes), ds[i]? = some d → ∃ name op r, ops[i]? = some op ∧ rs[i]? = some r ∧ UploadCall name d op r) →
    DataIn C ops rs ds
  | [], ops, rs, h1, h2, _ => by
    obtain rfl := List.length_eq_zero_iff.1 h1
    obtain rfl := List.length_eq_zero_iff.1 h2
    exact .nil
  | d :: ds, ops, rs, h1, h2, h => by
    cases ops with
    | nil => cases h1
    | cons op ops =>
      cases rs with
      | nil => cases h2
      | cons r rs =>
        obtain ⟨name, op', r', e1, e2, hc⟩ := h 0 d rfl
        cases e1
        cases e2
        obtain ⟨evs, acts, evs', ns, rfl, rfl, hok, hacc, _⟩ := hc
        exact .listed rfl (hacc ▸ .stream _ _ _ _ _ _ (Or.inr hok))
          (data_of_index (Nat.succ.inj h1) (Nat.succ.inj h2) fun i y hy => h (i + 1) y hy)

/-- C104, what can be read without seeking: a client of the streaming reader sees the parts one by one, under their names, and their
data, or as much of it as it wants, whatever the archive's end looks like. (It cannot check the data, see C68; an archive of no parts
it does not know, see C28.) -/
theorem C104_streamed (C : Codec) (hC : Lawful C) (san : RString → RString) (uuid : Nat → RString) (body : List (Option Part))
    (parts : List (Option RString × List Bytes)) (hb : Arrived body parts) (create shutdown : OsEv) (evs : Nat → PartEvs)
    (closing : List Ev) (sink : Sink) (h : createArchive C san uuid body create shutdown evs closing = (.done (), some sink))
    (hsize : sink.bytes.length < 2 ^ 64) (hne : parts ≠ []) (b : Build) :
    ∃ es : List ZipEntry, es.length = parts.length ∧
      (∀ (i : Nat) (x : Option RString × List Bytes), parts[i]? = some x → ∃ e, es[i]? = some e ∧
        e.filename.asStr = .ok (entryName san (uuid i) x.1)) ∧
      ∀ vs : List Visit, (∀ v ∈ vs, v.Buffered) → (∀ v ∈ vs, ∀ k, v ≠ .check k) → ∀ s : RState, s.data = sink.bytes → s.pos = 0 →
        Rd.Interrupted (visits C b vs s).1 ∨ (visits C b vs s).1 =
          .ok ((es.zip (vs.zip parts)).map fun q => (q.1, q.2.1.sees q.2.2.2.flatten), decide (parts.length < vs.length)) := by
  obtain ⟨parts', sink', ops, hb', hf, hc, hu, _⟩ := C104_stored C san uuid body create shutdown evs closing _ h
  cases hf
  obtain rfl := arrived_inj hb' hb
  have hlen : (parts'.map fun x => x.2.flatten).length = parts'.length := List.length_map _
  obtain ⟨ls, es, hp, h1, h2, h3⟩ := C28_visits_partial C hC ⟨[], 0, 0⟩ sink (.new ⟨[], 0, 0⟩) .new rfl ops closing hc
    (fun r hr => by obtain ⟨ns, rfl⟩ := UploadCalls_result hu hr; exact Or.inl rfl)
    (fun op ho => by obtain ⟨_, _, _, _, rfl⟩ := UploadCalls_op hu ho; exact fun h => (by cases h))
    (fun op ho f hf => by obtain ⟨_, _, _, _, rfl⟩ := UploadCalls_op hu ho; cases hf)
    hsize (parts'.map fun x => x.2.flatten)
    (data_of_index (by rw [hlen]; exact hu.count) (by rw [hlen]; exact hu.results) fun i d hd => by
      rw [List.getElem?_map] at hd
      cases hx : parts'[i]? with
      | none => rw [hx] at hd; cases hd
      | some x =>
        rw [hx] at hd
        cases hd
        obtain ⟨op, r, g1, g2, g3⟩ := hu.each i x hx
        exact ⟨_, op, r, g1, g2, g3⟩)
    (fun h => hne (List.map_eq_nil_iff.1 h)) b
  rw [hlen] at h1
  refine ⟨es, by rw [← h2.length_eq, h1], fun i x hx => ?_, fun vs hv hck s hs hp0 => ?_⟩
  · obtain ⟨op, r, g1, g2, ev, acts, ev', ns, rfl, rfl, _⟩ := hu.each i x hx
    obtain ⟨l, hl, ha⟩ := Program.nth hp g1 g2 rfl
    rw [List.countP_eq_length.2 fun r hr => (by
        obtain ⟨ns, rfl⟩ := UploadCalls_result hu (List.mem_of_mem_take hr); rfl), List.length_take, hu.results,
      Nat.min_eq_left (Nat.le_of_lt (List.getElem?_eq_some_iff.1 hx).1)] at hl
    obtain ⟨e, he, _, hn⟩ := forall₂_get' h2 hl
    refine ⟨e, he, ?_⟩
    cases ha with
    | stream _ _ _ _ _ _ fed stored hl hst hfed =>
      have := (hn (Constructed.ofString ⟨_, entryName_valid⟩) ⟨fun i h => (by cases h), fun i h => (by cases h)⟩).text _ rfl
        fun _ => rfl
      rw [Nat.zero_add] at this
      exact this
  · have := h3 vs hv (fun q hq k hk => absurd hk (hck _ (List.of_mem_zip (List.of_mem_zip hq).2).1 k)) s hs hp0
    rw [hlen, List.zip_map_right, List.zip_map_right, List.map_map] at this
    exact this

namespace Samples

/-- An upload of two parts: a file called `a` in three pieces, one of them empty, and data without a file name. -/
def uploadParts : List (Option RString × List Bytes) := [(some ⟨[97], by decide +kernel⟩, [[1], [], [2, 3]]), (none, [[5]])]

def uploadBody : List (Option Part) := uploadParts.map fun x => some ⟨x.1, x.2.map some⟩

/-- A name that is made up: `b`. -/
def madeUp : Nat → RString := fun _ => ⟨[98], by decide +kernel⟩

def uploadEvs : Nat → PartEvs := fun _ => ⟨eager, [eager, eager, eager], eager⟩

/-- What comes of it. -/
def uploadBytes : Bytes :=
  [80, 75, 3, 4, 20, 0, 8, 8, 8, 0, 0, 0, 0, 0, 0, 0, 0, 0, 255, 255, 255, 255, 255, 255, 255, 255, 1, 0, 20, 0, 97, 1, 0, 16,
   0, 0, 0, 0, 0, 0, 0, 0, 0, 0, 0, 0, 0, 0, 0, 0, 0, 1, 1, 1, 2, 1, 3, 0, 80, 75, 7, 8, 29, 128, 188, 85, 255, 255, 255, 255,
   255, 255, 255, 255, 80, 75, 3, 4, 20, 0, 8, 8, 8, 0, 0, 0, 0, 0, 0, 0, 0, 0, 255, 255, 255, 255, 255, 255, 255, 255, 1, 0,
   20, 0, 98, 1, 0, 16, 0, 0, 0, 0, 0, 0, 0, 0, 0, 0, 0, 0, 0, 0, 0, 0, 0, 1, 5, 0, 80, 75, 7, 8, 2, 27, 104, 162, 255, 255,
   255, 255, 255, 255, 255, 255, 80, 75, 1, 2, 63, 3, 20, 0, 8, 8, 8, 0, 0, 0, 0, 0, 29, 128, 188, 85, 255, 255, 255, 255, 255,
   255, 255, 255, 1, 0, 28, 0, 0, 0, 0, 0, 0, 0, 0, 0, 0, 0, 255, 255, 255, 255, 97, 1, 0, 24, 0, 3, 0, 0, 0, 0, 0, 0, 0, 7, 0,
   0, 0, 0, 0, 0, 0, 0, 0, 0, 0, 0, 0, 0, 0, 80, 75, 1, 2, 63, 3, 20, 0, 8, 8, 8, 0, 0, 0, 0, 0, 2, 27, 104, 162, 255, 255, 255,
   255, 255, 255, 255, 255, 1, 0, 28, 0, 0, 0, 0, 0, 0, 0, 0, 0, 0, 0, 255, 255, 255, 255, 98, 1, 0, 24, 0, 1, 0, 0, 0, 0, 0, 0,
   0, 3, 0, 0, 0, 0, 0, 0, 0, 74, 0, 0, 0, 0, 0, 0, 0, 80, 75, 6, 6, 44, 0, 0, 0, 0, 0, 0, 0, 63, 3, 46, 0, 0, 0, 0, 0, 0, 0, 0,
   0, 2, 0, 0, 0, 0, 0, 0, 0, 2, 0, 0, 0, 0, 0, 0, 0, 150, 0, 0, 0, 0, 0, 0, 0, 144, 0, 0, 0, 0, 0, 0, 0, 80, 75, 6, 7, 0, 0, 0,
   0, 38, 1, 0, 0, 0, 0, 0, 0, 1, 0, 0, 0, 80, 75, 5, 6, 0, 0, 0, 0, 2, 0, 2, 0, 150, 0, 0, 0, 144, 0, 0, 0, 0, 0]

theorem upload_done : createArchive markCodec id madeUp uploadBody .go .go uploadEvs eager = (.done (), some ⟨uploadBytes, 0, 0⟩) := by
  decide +kernel

theorem upload_last : LastEnd (Sink.mk uploadBytes 0 0).bytes ((Sink.mk uploadBytes 0 0).bytes.length - 22) :=
  lastEnd_of_decide (by unfold OccursAt; decide +kernel)

end Samples

/-- C104 on this upload: the entries are `a` and `b`. -/
example (b : Build) (hb : 2 ≤ b.maxVecEntries) : ∃ f : ZipFile,
    (∀ s : RState, s.data = Samples.uploadBytes → Rd.Interrupted (openFile b s).1 ∨ (openFile b s).1 = .ok f) ∧ f.entries.length = 2 ∧
    (f.entries[0]?.map fun e => e.entry.filename) = some ⟨.utf8, [97], none⟩ ∧
    (f.entries[1]?.map fun e => e.entry.filename) = some ⟨.utf8, [98], none⟩ ∧
    ∀ s : RState, s.data = Samples.uploadBytes →
      Rd.Interrupted (checkedRead Samples.markCodec f 0 8 s).1 ∨ (checkedRead Samples.markCodec f 0 8 s).1 = .ok [1, 2, 3] := by
  obtain ⟨f, h1, h2, h3⟩ := C104_read_partial Samples.markCodec Samples.markCodec_lawful id Samples.madeUp Samples.uploadBody
    Samples.uploadParts rfl .go .go Samples.uploadEvs Samples.eager ⟨Samples.uploadBytes, 0, 0⟩ Samples.upload_done Samples.upload_last
    (by decide +kernel) (Or.inl (by decide +kernel)) b hb
  obtain ⟨e, he, hn, hr⟩ := h3 0 _ rfl
  obtain ⟨e', he', hn', _⟩ := h3 1 _ rfl
  refine ⟨f, h1, h2, ?_, ?_, fun s hs => hr 8 (by decide) s hs⟩
  · rw [he]; exact congrArg some hn
  · rw [he']; exact congrArg some hn'

/-- Read as a stream: the first two bytes of the first, all of the second, and no third. -/
example (b : Build) : ∃ e e', ∀ s : RState, s.data = Samples.uploadBytes → s.pos = 0 →
    Rd.Interrupted (visits Samples.markCodec b [.part 2 5, .read 8, .skip] s).1 ∨
    (visits Samples.markCodec b [.part 2 5, .read 8, .skip] s).1 = .ok ([(e, some [1, 2]), (e', some [5])], true) := by
  obtain ⟨es, h1, _, h3⟩ := C104_streamed Samples.markCodec Samples.markCodec_lawful id Samples.madeUp Samples.uploadBody
    Samples.uploadParts rfl .go .go Samples.uploadEvs Samples.eager ⟨Samples.uploadBytes, 0, 0⟩ Samples.upload_done
    (by decide +kernel) (by simp [Samples.uploadParts]) b
  match es, h1 with
  | [e, e'], _ =>
    exact ⟨e, e', h3 _ (by
      intro v hv
      rcases List.mem_cons.1 hv with rfl | hv
      · exact (by decide : 0 < 5)
      rcases List.mem_cons.1 hv with rfl | hv
      · exact (by decide : 0 < 8)
      rw [List.mem_singleton] at hv
      subst hv
      trivial) (by intro v hv k hk; subst hk; simp at hv)⟩

/-- And they are unpacked as files of these names. -/
example (b : Build) (hb : 2 ≤ b.maxVecEntries) : ∃ d',
    unzipFile b Samples.markCodec Samples.wash (render [[111]]) ⟨Samples.uploadBytes, 0, none, []⟩ ⟨Samples.disk, []⟩ = (true, d') ∧
    d'.fs [[111], [97]] = some (.file [1, 2, 3]) ∧ d'.fs [[111], [98]] = some (.file [5]) := by
  obtain ⟨d', h1, _, _, h4⟩ := C104_unpacked_partial Samples.markCodec Samples.markCodec_lawful id Samples.madeUp Samples.uploadBody
    Samples.uploadParts rfl .go .go Samples.uploadEvs Samples.eager ⟨Samples.uploadBytes, 0, 0⟩ Samples.upload_done Samples.upload_last
    (by decide +kernel) (Or.inl (by decide +kernel)) b hb Samples.wash_sanitizes Samples.o_plain Samples.disk Samples.disk_grown
    Samples.disk_rooted (by decide +kernel)
    (by
      intro x hx
      refine Samples.disk_room ?_
      rcases List.mem_cons.1 hx with rfl | hx
      · decide +kernel
      · have hx : x ∈ [(([98] : Bytes), ([5] : Bytes))] := hx
        rw [List.mem_singleton] at hx; subst hx; decide +kernel)
    (by
      refine List.Pairwise.cons (fun y hy => ?_) (List.pairwise_singleton _ _)
      have hy : y ∈ [(([98] : Bytes), ([5] : Bytes))] := hy
      rw [List.mem_singleton] at hy
      subst hy
      exact ⟨fun _ => by decide +kernel, fun _ => by decide +kernel⟩) 0 []
  exact ⟨d', h1, h4 ([97], [1, 2, 3]) List.mem_cons_self, h4 ([98], [5]) (List.mem_cons_of_mem _ List.mem_cons_self)⟩

namespace Samples

/-- A request that breaks off in its second part. -/
def brokenOff : List (Option Part) := [some ⟨some ⟨[97], by decide +kernel⟩, [some [1]]⟩, some ⟨none, [some [5], none]⟩]

end Samples

/-- It leaves a file with an entry and a piece of another, and no directory. -/
example : (createArchive Samples.markCodec id Samples.madeUp Samples.brokenOff .go .go Samples.uploadEvs Samples.eager).1 = .refused ∧
    ((createArchive Samples.markCodec id Samples.madeUp Samples.brokenOff .go .go Samples.uploadEvs Samples.eager).2.map
      fun s => (s.bytes.length, s.bytes.take 4)) = some (121, [80, 75, 3, 4]) := by decide +kernel

/-- The hypotheses of `C104_completes` are met by the upload above. -/
example : ∃ evs closing sink, createArchive Samples.markCodec id Samples.madeUp Samples.uploadBody .go .go evs closing =
    (.done (), some sink) := by
  obtain ⟨evs, closing, sink, _, _, h⟩ := C104_completes Samples.markCodec id Samples.madeUp Samples.uploadBody Samples.uploadParts rfl
    (fun i x hx => by
      match i, hx with
      | 0, hx => cases hx; decide +kernel
      | 1, hx => cases hx; decide +kernel) 0
  exact ⟨evs, closing, sink, h⟩

end AsyncZip
