import Verif.Proofs.Verdict
import Verif.Props.Fits
import Verif.Proofs.Samples
/-!
# C78: exactly what the writer refuses
-/

namespace AsyncZip

open Spec Wr

/-- C78. Writing a whole entry, however the sink behaves: if the sink lets the call finish, the result is that of the first
row that applies, and success if none does. -/
theorem C78_whole (C : Codec) (zw : ZipWriter) (e : ZipEntry) (d : Bytes) (pre : Bool) (evs : List Ev)
    (hd : d.length < 2 ^ 64) (hs : (wholeStored C e d pre).length < 2 ^ 64)
    (hc : Completed (writeWhole C e d pre ⟨zw, evs⟩).1) :
    FirstOf (wholeRows zw.forceNoZip64 zw.writer.offset e pre (if pre then e.uncompressedSize.toNat else d.length)
        (wholeStored C e d pre).length ++
      wholeLateRows zw.forceNoZip64 zw.writer.offset zw.cdEntries.length e
        (if pre then e.uncompressedSize.toNat else d.length) (wholeStored C e d pre).length)
      (writeWhole C e d pre ⟨zw, evs⟩).1 :=
  (whole_rows hd hs).resolve_left (completed_not hc)

/-- C78. What is refused by the first rows is refused whatever the sink would have done, and nothing was written for it. -/
theorem C78_whole_early (C : Codec) (zw : ZipWriter) (e : ZipEntry) (d : Bytes) (pre : Bool) (evs : List Ev)
    (hd : d.length < 2 ^ 64) (hs : (wholeStored C e d pre).length < 2 ^ 64) (x : Fail)
    (h : FirstOf (wholeRows zw.forceNoZip64 zw.writer.offset e pre (if pre then e.uncompressedSize.toNat else d.length)
      (wholeStored C e d pre).length) (.error x)) :
    (writeWhole C e d pre ⟨zw, evs⟩).1 = .error x ∧ (writeWhole C e d pre ⟨zw, evs⟩).2.zw.writer = zw.writer ∧
      (writeWhole C e d pre ⟨zw, evs⟩).2.zw.cdEntries = zw.cdEntries :=
  whole_early hd hs h

/-- C78. Opening a stream. -/
theorem C78_open (C : Codec) (zw : ZipWriter) (e : ZipEntry) (pre : Bool) (evs : List Ev)
    (hc : Completed (openStream C e pre ⟨zw, evs⟩).1) :
    FirstOf (openRows zw.forceNoZip64 e pre) ((openStream C e pre ⟨zw, evs⟩).1.map fun _ => ()) :=
  openStream_rows.resolve_left (completed_not hc)

/-- C78. What is refused by the first three rows is refused whatever the sink would have done, and nothing was written. -/
theorem C78_open_early (C : Codec) (zw : ZipWriter) (e : ZipEntry) (pre : Bool) (evs : List Ev) (x : Fail)
    (h : FirstOf ((openRows zw.forceNoZip64 e pre).take 3) (.error x)) :
    ∃ s, openStream C e pre ⟨zw, evs⟩ = (.error x, s) ∧ s.zw.writer = zw.writer ∧ s.zw.cdEntries = zw.cdEntries :=
  openStream_early h

/-- C78. Closing a stream after any calls on it. -/
theorem C78_close_stream (C : Codec) (zw zw' : ZipWriter) (e : ZipEntry) (pre : Bool) (evs evs' : List Ev)
    (acts : List StreamAct) (rs : List (Res Nat)) (r : Res Unit)
    (h : runOp C zw (.stream e pre evs acts (.close evs')) = (.stream (.ok ()) rs (some r), zw'))
    (hd : (accepted acts rs).length < 2 ^ 64) (hc : Completed r) :
    ∃ stored, StreamStored C e pre acts rs stored ∧
      FirstOf (closeRows zw.forceNoZip64 zw.writer.offset zw.cdEntries.length e
        (if pre then e.uncompressedSize.toNat else (accepted acts rs).length) stored.length) r := by
  cases ho : openStream C e pre ⟨zw, evs⟩ with
  | mk q s =>
    cases q with
    | error x => rw [runOp_open_error ho] at h; cases h
    | ok st =>
      obtain ⟨rs', zw1, st', em, f, h1, _⟩ := runActs_spec acts s.zw st
      cases hcl : closeStream st' ⟨zw1, evs'⟩ with
      | mk r' t =>
        rw [runOp_close ho h1 hcl] at h
        simp only [Prod.mk.injEq, OpResult.stream.injEq, Option.some.injEq, true_and] at h
        obtain ⟨⟨rfl, rfl⟩, rfl⟩ := h
        obtain ⟨stored, g1, g2, g3, g4, g5, g6⟩ := stream_stored ho h1
        refine ⟨stored, g1, ?_⟩
        have hrow := (closeStream_rows (st := st') (zw := zw1) (evs := evs') (f := e)
          (us := if pre then e.uncompressedSize.toNat else (accepted acts rs').length)
          (by
            rw [g6]
            cases pre with
            | true => rfl
            | false =>
              simp only [Bool.false_eq_true, if_false]
              rw [UInt64.toNat_ofNat', Nat.mod_eq_of_lt hd])
          (by rw [g6, g3]; cases pre <;> rfl) (by rw [g6]; cases pre <;> rfl))
        rw [hcl, g3, g4, g5, g2] at hrow
        exact hrow.resolve_left (completed_not hc)

/-- C78. Closing the archive after any program. -/
theorem C78_close (C : Codec) (sink : Sink) (zw : ZipWriter) (h : Created sink zw) (ops : List Op) (evs : List Ev)
    (hc : Completed (runArchive C zw ops evs).2.1) :
    FirstOf [(zw.forceNoZip64 = true ∧ Beyond32 (runOps C zw ops).2.writer.offset, .err (.zip64Needed .largeFile))]
      ((runArchive C zw ops evs).2.1.map fun _ => ()) := by
  by_cases hb : zw.forceNoZip64 = true ∧ Beyond32 (runOps C zw ops).2.writer.offset
  · rw [C38_reports_close C sink zw h hb.1 ops evs hb.2 hc]
    exact .here hb
  · cases hr : (runArchive C zw ops evs).2.1 with
    | ok s => exact .later hb .none
    | error x =>
      rcases closeArchive_error (zw := (runOps C zw ops).2) (evs := evs) hr
        (by rw [runOps_force]; exact fun h' => hb ⟨h'.2, h'.1⟩) with hw | rfl
      · rw [hr] at hc
        exact absurd hw.cast (completed_not hc)
      · exact absurd hr (C47_close C sink zw h ops evs)

/-! ## Concrete cases -/

/-- A row for every outcome: nothing applies to an ordinary entry. -/
example : FirstOf (wholeRows false 0 Samples.storedEntry false 3 3 ++ wholeLateRows false 0 0 Samples.storedEntry 3 3)
    (.ok ()) := by
  refine .later ?_ (.later ?_ (.later ?_ (.later ?_ (.later ?_ (.later ?_ (.later ?_ .none)))))) <;> decide +kernel

/-- A name of 65536 bytes is the first thing wrong with this entry; its comment is too long as well. -/
example : FirstOf (wholeRows false 0 { ZipEntry.new ⟨.utf8, List.replicate 65536 97, none⟩ .stored with
    comment := ⟨.utf8, List.replicate 65536 98, none⟩ } false 3 3) (.error (.err .fileNameTooLarge)) := by
  have hp : ∀ t, namedTotal { ZipEntry.new ⟨.utf8, List.replicate 65536 97, none⟩ .stored with
      comment := ⟨.utf8, List.replicate 65536 98, none⟩ } t = t := fun t => if_pos ⟨⟨rfl, rfl⟩, ⟨rfl, rfl⟩⟩
  refine .later (fun h => by cases h.1) (.later (fun h => by cases h.1) (.later ?_ (.here ?_)))
  · rw [hp]; decide +kernel
  · show 65535 < (List.replicate 65536 (97 : UInt8)).length
    rw [List.length_replicate]; decide

/-- A comment that goes into its own Unicode field does not fit there although comment and fields fit by themselves. -/
example (c : Bytes) (h : c.length = 65530) : FirstOf (wholeRows false 0 { ZipEntry.new ⟨.utf8, [97], none⟩ .stored with
    comment := ⟨.utf8, c, some [98]⟩ } false 3 3) (.error (.err .extraFieldTooLarge)) := by
  refine .later (fun h => by cases h.1) (.later (fun h => by cases h.1) (.here ?_))
  have hc : c ≠ [] := by rintro rfl; cases h
  rw [namedTotal, if_neg (fun h => by cases h.2.2)]
  show 65535 < if Told ⟨.utf8, c, some [98]⟩ then (if Told ⟨.utf8, [97], none⟩ then 0 + (9 + 1) else 0) + (9 + c.length) else _
  rw [if_pos (show Told ⟨.utf8, c, some [98]⟩ from ⟨rfl, hc⟩)]
  omega

/-- With ZIP64 forbidden the 65536th entry is refused, after it was written. -/
example : FirstOf (wholeRows true 9 Samples.storedEntry false 3 3 ++ wholeLateRows true 9 65535 Samples.storedEntry 3 3)
    (.error (.err (.zip64Needed .tooManyFiles))) := by
  refine .later ?_ (.later ?_ (.later ?_ (.later ?_ (.later ?_ (.later ?_ (.here ?_)))))) <;> decide +kernel

/-- A field that leaves room for the stream's sizes but not for its offset: the stream opens and cannot be closed. -/
example (c : Bytes) (h : c.length = 65511) : FirstOf (openRows false { ZipEntry.new ⟨.utf8, [97], none⟩ .stored with
      extraFields := [.unknown ⟨1234, 65511, c⟩] } false) (.ok ()) ∧
    FirstOf (closeRows false 0 0 { ZipEntry.new ⟨.utf8, [97], none⟩ .stored with extraFields := [.unknown ⟨1234, 65511, c⟩] } 3 3)
      (.error (.err .extraFieldTooLarge)) := by
  have hp : ∀ t, namedTotal { ZipEntry.new ⟨.utf8, [97], none⟩ .stored with extraFields := [.unknown ⟨1234, 65511, c⟩] } t = t :=
    fun t => if_pos ⟨⟨rfl, rfl⟩, ⟨rfl, rfl⟩⟩
  have ht : countedAll [.unknown ⟨1234, 65511, c⟩] = 65515 := by
    simp only [countedAll, List.map_cons, List.map_nil, counted, List.sum_cons, List.sum_nil, h]
    rfl
  refine ⟨.later (fun h => by cases h.1) (.later ?_ (.later (show ¬ 65535 < [(97 : UInt8)].length by decide)
      (.later (fun h => by cases h.1) .none))),
    .later (fun h => by cases h.1) (.here ⟨rfl, ?_⟩)⟩
  · rw [hp]
    show ¬ 65535 < countedAll [.unknown ⟨1234, 65511, c⟩] + 20
    rw [ht]; decide
  · rw [hp]
    show 65535 < countedAll [.unknown ⟨1234, 65511, c⟩] + 20 + 8
    rw [ht]; decide

open Samples in
/-- Streams that are opened, written to, and closed. -/
example : (runOp markCodec fresh (.stream deflatedEntry false eager [.write [7, 8, 9] eager, .flush eager] (.close eager))).1 =
      .stream (.ok ()) [.ok 3, .ok 0] (some (.ok ())) ∧ (accepted [.write [7, 8, 9] eager, .flush eager] [.ok 3, .ok 0]).length < 2 ^ 64 ∧
    Completed (.ok () : Res Unit) :=
  ⟨by decide +kernel, by decide +kernel, fun _ h => by cases h⟩

end AsyncZip
