import Verif.Proofs.Classic
import Verif.Props.Size
import Verif.Props.Independent
import Verif.Props.Sequential
/-!
# C88: software from before ZIP64
-/

namespace AsyncZip
open Spec Rd

theorem Finished.classic {C : Codec} {sink : Sink} {zw : ZipWriter} {ops : List Op} {evs : List Ev}
    {bytes out cd : Bytes} {J : Prop} {ps : List (Listing × CdEntry)} {offs : List Nat} {z : Bool}
    (fin : Finished C zw ops evs bytes J out ps offs cd z) (h : Created sink zw)
    (hr : Readable ops (runArchive C zw ops evs).1 bytes) (hz : z = false)
    (hsw : ∀ l ∈ ps.map Prod.fst, l.recorded zw.forceNoZip64 = (l.us, l.cs)) :
    ∃ is, Spec.classic bytes = some (is, archiveComment ops) ∧ List.Forall₂ Shows (ps.map Prod.fst) is := by
  obtain ⟨hown, hcom, hlast, hcount, hsize⟩ := hr
  have hb := fin.bytes
  rw [commentBytes_eq] at hb
  have hdd := archive_drop_cd out cd z ps.length (archiveComment ops)
  rw [← hb] at hdd
  have hlen : bytes.length < 2 ^ 64 := by omega
  obtain ⟨js, d1, _, _, d4, _⟩ := fin.onBytes (fun op ho => own_noZip64 (hown op ho)) hlen
  obtain ⟨e1, e2, e3, e4, e5, e6⟩ := d4 hcom
  have hl := d1.last
  subst hz
  have hj : endPosition bytes (archiveComment ops) = out.length + cd.length := by
    show bytes.length - _ = _
    rw [if_neg (by decide)] at hl
    omega
  rw [hj] at e1 e2 e3 e4 e5 e6 hlast
  have hjl : out.length + cd.length + 22 + (archiveComment ops).length = bytes.length := by
    rw [if_neg (by decide)] at hl
    omega
  have hn : ps.length ≤ 0xFFFF := by
    cases hf : zw.forceNoZip64 with
    | true =>
      obtain ⟨_, he, _⟩ := Created.facts h
      have := runOps_tooMany C ops zw hf (by rw [he]; exact Nat.zero_le _) hcount
      rwa [fin.entries, List.length_map] at this
    | false =>
      refine Nat.not_lt.1 fun hb => ?_
      cases fin.count hf hb
  rw [Nat.min_eq_left hn] at e3
  rw [Nat.min_eq_left (by omega)] at e4 e5
  obtain ⟨is, i1, i2⟩ := Directory.classicItems
    (y := cd ++ endBytes false ps.length cd.length out.length (archiveComment ops)) hb hlen (by omega) fin.directory hdd
    fin.placed (fin.own hown) (fun p hp => hsw _ (List.mem_map_of_mem hp)) (fun hf p hp hn => by
      cases fin.needs hf ⟨p, hp, hn⟩)
  refine ⟨is, ?_, i2⟩
  unfold Spec.classic
  rw [lastEndBelow_of hlast (by omega)]
  simp only
  rw [e2.1, e2.2, e3.1, e3.2, e4, e5, e6.1, if_pos ⟨rfl, rfl, rfl, rfl, hjl⟩, i1, e6.2]
  rfl

/-- C88. Software that has never heard of ZIP64 reads every archive of less than 4 GiB that asks for nothing ZIP64 is for: it
gets every entry, in order, with its name, comment, method, date, checksum, sizes, attributes and stored bytes, and the comment
of the archive. Partial: the writer asks for ZIP64 where it is not needed, for every stream unless `force_no_zip64` is set
(`C88_stream_fails`), and then the sizes of a compressed stream are recorded the wrong way round; the rest of `Readable` as in
C41. -/
theorem C88_classic_partial (C : Codec) (sink sink' : Sink) (zw : ZipWriter) (h : Created sink zw) (hs : sink.bytes = [])
    (ops : List Op) (evs : List Ev) (hc : (runArchive C zw ops evs).2.1 = .ok sink')
    (hr : Readable ops (runArchive C zw ops evs).1 sink'.bytes) (hfine : ∀ r ∈ (runArchive C zw ops evs).1, Fine r)
    (hx : zw.forceNoZip64 = true → ∀ op ∈ ops, ¬ Exchanged op) :
    ∃ ls, Program C ops (runArchive C zw ops evs).1 ls ∧
      (¬ EndsZip64 zw.forceNoZip64 zw.isZip64 ls →
        ∃ is, classic sink'.bytes = some (is, archiveComment ops) ∧ List.Forall₂ Shows ls is) := by
  obtain ⟨out, ps, offs, cd, z, fin⟩ := finished h hs hc (J := False) (Or.inr hfine)
  refine ⟨ps.map Prod.fst, fin.program, fun hz => fin.classic h hr ?_ (Program.recorded fin.program hx)⟩
  refine Bool.eq_false_iff.2 fun hzz => hz ?_
  exact (fin.ends hfine fun op ho => own_noZip64 (hr.own op ho)).1 hzz

/-- C88. The same whatever failed, was cancelled or abandoned on the way, going by what the writer ended up with. -/
theorem C88_failures_partial (C : Codec) (sink sink' : Sink) (zw : ZipWriter) (h : Created sink zw) (hs : sink.bytes = [])
    (ops : List Op) (evs : List Ev) (hc : (runArchive C zw ops evs).2.1 = .ok sink')
    (hr : Readable ops (runArchive C zw ops evs).1 sink'.bytes) (hz : (runArchive C zw ops evs).2.2.isZip64 = false)
    (hx : zw.forceNoZip64 = true → ∀ op ∈ ops, ¬ Exchanged op) :
    ∃ ls is, Program C ops (runArchive C zw ops evs).1 ls ∧ classic sink'.bytes = some (is, archiveComment ops) ∧
      List.Forall₂ Shows ls is := by
  obtain ⟨out, ps, offs, cd, z, fin⟩ := finished h hs hc (J := True) (Or.inl trivial)
  obtain ⟨is, h1, h2⟩ := fin.classic h hr (fin.zip.trans hz) (Program.recorded fin.program hx)
  exact ⟨_, is, fin.program, h1, h2⟩

theorem Samples.pair_readable :
    Readable Samples.pair (runArchive Samples.markCodec Samples.fresh Samples.pair Samples.eager).1 Samples.pairBytes where
  own := by
    unfold Samples.pair
    simp only [List.forall_mem_cons]
    exact ⟨(fun _ h => by cases h), (fun _ h => by cases h), fun _ h => by cases h⟩
  comment := by decide +kernel
  last := lastEnd_of_decide (by decide +kernel)
  count := by
    rw [Samples.pair_archive.1]
    simp only [List.forall_mem_cons]
    exact ⟨(fun h => by cases h), (fun h => by cases h), fun _ h => by cases h⟩
  size := by decide +kernel

/-- The sample of two small entries. -/
example : ∃ ls is, Program Samples.markCodec Samples.pair [.whole (.ok ()), .whole (.ok ())] ls ∧
    classic Samples.pairBytes = some (is, []) ∧ List.Forall₂ Shows ls is := by
  have := C88_failures_partial Samples.markCodec ⟨[], 0, 0⟩ ⟨Samples.pairBytes, 0, 0⟩ Samples.fresh .new rfl Samples.pair
    Samples.eager Samples.pair_archive.2 Samples.pair_readable (by decide +kernel) (fun h => by cases h)
  rw [Samples.pair_archive.1] at this
  exact this

/-- What that reader finds in it. -/
example : (classic Samples.pairBytes).map (fun x => x.1.map fun i => (i.name, i.us, i.stored)) =
    some [([97, 46, 116], 2, [104, 105]), ([98], 1, [1, 5, 0])] := by decide +kernel

/-- C88 is not so for streams, however small: a reader from before ZIP64 finds an end record with values that mean nothing to it,
and can do nothing with the entry. -/
theorem C88_stream_fails :
    (runArchive Samples.markCodec Samples.fresh Samples.streamOne Samples.eager).1 = [.stream (.ok ()) [.ok 3] (some (.ok ()))] ∧
    (runArchive Samples.markCodec Samples.fresh Samples.streamOne Samples.eager).2.1 = .ok ⟨Samples.streamedBytes, 0, 0⟩ ∧
    classic Samples.streamedBytes = none ∧ ∀ j < Samples.streamedBytes.length, classicItem Samples.streamedBytes j = none :=
  ⟨Samples.streamed_archive.1, Samples.streamed_archive.2, by decide +kernel, by decide +kernel⟩

end AsyncZip
