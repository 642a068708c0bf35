import Verif.Spec.Refused
import Verif.Proofs.Openable
import Mathlib.Data.Nat.Find
/-!
# What opening reports
-/

namespace AsyncZip
open Spec Rd

/-! ## Extra fields -/

theorem incomplete_comment {sz : UInt16} {content : Bytes} {err : ZipError} {id : Nat}
    (h : ¬ CompleteField (id, content)) : infoZipFromBytes err sz content = .error (.err err) := by
  cases content with
  | nil => rfl
  | cons v r =>
    have h' : v = 1 ∧ (v :: r).length < 5 := by
      by_cases hv : v = 1
      · refine ⟨hv, ?_⟩
        by_cases hl : (v :: r).length < 5
        · exact hl
        · exact absurd (fun _ => ⟨by simp, fun _ => by simpa using hl⟩) h
      · refine absurd (fun _ => ⟨by simp, fun hh => ?_⟩) h
        simp only [List.head?_cons, Option.some.injEq] at hh
        exact absurd hh hv
    simp only [infoZipFromBytes]
    rw [if_pos h'.1, if_pos h'.2]

theorem BadExtra.parse {b : Build} (us cs : UInt32) {x : Bytes} {e : Fail} (h : BadExtra b.overflowChecks x e) :
    parseExtraFields b x us cs = .error e := by
  unfold parseExtraFields
  induction h with
  | overlongPanic x h hc =>
    have hsz := fromLe16_slice x 2 (by have := h.1; omega)
    simp only [Nat.reduceAdd] at hsz
    unfold parseExtraLoop
    rw [dif_pos h.1]
    simp only []
    rw [if_pos (by have := h.2; omega), extraRemaining_underflow _ _ _ (by have := h.2; omega), if_pos hc]
    rfl
  | overlong x h hc size remaining hs hr =>
    have hsz := fromLe16_slice x 2 (by have := h.1; omega)
    simp only [Nat.reduceAdd] at hsz
    have hsize : fromLe16 (slice x 2 4) = size := UInt16.toNat_inj.1 (by rw [hsz, hs])
    unfold parseExtraLoop
    rw [dif_pos h.1]
    simp only []
    rw [if_pos (by have := h.2; omega), extraRemaining_underflow _ _ _ (by have := h.2; omega),
      if_neg (by rw [hc]; decide)]
    simp only [res_ok_bind]
    rw [hsize, show 2 ^ 64 + x.length - 8 - size.toNat = remaining by omega]
  | comment x h4 hlen hid h =>
    have hid' := fromLe16_slice x 0 (by omega)
    have hsz := fromLe16_slice x 2 (by omega)
    simp only [Nat.zero_add, Nat.reduceAdd] at hid' hsz
    have hslice : slice x 4 (4 + (fromLe16 (slice x 2 4)).toNat) = (x.drop 4).take (fieldAt x 2 2) := by
      rw [hsz, slice]; congr 1; omega
    have hi : fromLe16 (slice x 0 2) = ID_UCOM := UInt16.toNat_inj.1 (by rw [hid', hid]; rfl)
    unfold parseExtraLoop
    rw [dif_pos h4]
    simp only []
    rw [if_neg (by omega), hslice, hi, extraFieldFromBytes, if_neg (by decide), if_pos rfl,
      incomplete_comment h]
    rfl
  | path x h4 hlen hid h =>
    have hid' := fromLe16_slice x 0 (by omega)
    have hsz := fromLe16_slice x 2 (by omega)
    simp only [Nat.zero_add, Nat.reduceAdd] at hid' hsz
    have hslice : slice x 4 (4 + (fromLe16 (slice x 2 4)).toNat) = (x.drop 4).take (fieldAt x 2 2) := by
      rw [hsz, slice]; congr 1; omega
    have hi : fromLe16 (slice x 0 2) = ID_UPATH := UInt16.toNat_inj.1 (by rw [hid', hid]; rfl)
    unfold parseExtraLoop
    rw [dif_pos h4]
    simp only []
    rw [if_neg (by omega), hslice, hi, extraFieldFromBytes, if_neg (by decide), if_neg (by decide), if_pos rfl,
      incomplete_comment h]
    rfl
  | later x hlen h e hs ih =>
    have h4 : 4 < x.length := by
      by_contra h4
      rw [show x.drop (4 + fieldAt x 2 2) = [] from List.drop_eq_nil_of_le (by omega),
        parseExtraLoop_short b us cs [] (by decide)] at ih
      cases ih
    have hid := fromLe16_slice x 0 (by omega)
    have hsz := fromLe16_slice x 2 (by omega)
    simp only [Nat.zero_add, Nat.reduceAdd] at hid hsz
    have hslice : slice x 4 (4 + (fromLe16 (slice x 2 4)).toNat) = (x.drop 4).take (fieldAt x 2 2) := by
      rw [hsz, slice]; congr 1; omega
    obtain ⟨f, hf⟩ := field_complete (id := fromLe16 (slice x 0 2)) (sz := fromLe16 (slice x 2 4))
      (content := (x.drop 4).take (fieldAt x 2 2)) us cs (by rw [hsz]; simp; omega) (by rw [hid]; exact h)
    unfold parseExtraLoop
    rw [dif_pos h4]
    simp only []
    rw [if_neg (by omega), hslice, hf]
    simp only [res_ok_bind]
    rw [hsz, ih]
    rfl

theorem extra_total (checks : Bool) (x : Bytes) : GoodExtra x ∨ ∃ e, BadExtra checks x e := by
  induction hn : x.length using Nat.strongRecOn generalizing x with
  | _ n ih =>
  by_cases h4 : 4 < x.length
  · by_cases hlen : 4 + fieldAt x 2 2 ≤ x.length
    · by_cases hc : CompleteField (fieldAt x 0 2, (x.drop 4).take (fieldAt x 2 2))
      · rcases ih _ (by simp; omega) (x.drop (4 + fieldAt x 2 2)) rfl with ⟨blocks, tail, h1, h2, h3⟩ | ⟨e, he⟩
        · refine Or.inl ⟨_, tail, .cons x blocks tail hlen h1, h2, fun block hb => ?_⟩
          rcases List.mem_cons.1 hb with rfl | hb
          · exact hc
          · exact h3 block hb
        · exact Or.inr ⟨e, .later x hlen hc e he⟩
      · right
        by_cases hid : fieldAt x 0 2 = 0x6375
        · exact ⟨_, .comment x h4 hlen hid (by rw [← hid]; exact hc)⟩
        · by_cases hid' : fieldAt x 0 2 = 0x7075
          · exact ⟨_, .path x h4 hlen hid' (by rw [← hid']; exact hc)⟩
          · refine absurd (fun h => ?_) hc
            rcases h with h | h
            · exact absurd h hid
            · exact absurd h hid'
    · right
      cases checks with
      | true => exact ⟨_, .overlongPanic x ⟨h4, by omega⟩ rfl⟩
      | false =>
        have hsz := fromLe16_slice x 2 (by omega)
        simp only [Nat.reduceAdd] at hsz
        have := (fromLe16 (slice x 2 4)).toNat_lt
        exact ⟨_, .overlong x ⟨h4, by omega⟩ rfl (fromLe16 (slice x 2 4))
          (2 ^ 64 + x.length - 8 - (fromLe16 (slice x 2 4)).toNat) hsz (by omega)⟩
  · exact Or.inl ⟨[], x, .nil x, by omega, fun _ h => by cases h⟩

/-- A number not in the table is refused. -/
theorem compression_unknown {v : UInt16} (h : ∀ c, (c, v.toNat) ∉ methodTable) :
    Compression.tryFrom v = .error (.err (.compressionNotSupported v)) := by
  cases hc : Compression.tryFrom v with
  | ok c => exact absurd (compression_ok hc) (h c)
  | error e =>
    unfold Compression.tryFrom at hc
    repeat' split at hc
    all_goals cases hc
    rfl

/-! ## Records -/

theorem Runs.andThen {α β : Type} {m : Rd α} {f : α → Rd β} {data : Bytes} {pos pos1 : Nat} {a : α} {r : Res β}
    (hm : Runs m data pos (.ok a) pos1) (hf : ∃ p, Runs (f a) data pos1 r p) : ∃ p, Runs (m >>= f) data pos r p := by
  obtain ⟨p, hf⟩ := hf
  exact ⟨p, Runs.bind hm hf⟩

theorem Runs.liftErr {α : Type} {r : Res α} {e : Fail} {data : Bytes} {pos : Nat} (h : r = .error e) :
    Runs (Rd.lift r) data pos (.error e) pos := by
  rw [h]; exact Runs.lift

theorem take4_field {data : Bytes} {pos : Nat} (h : pos + 4 ≤ data.length) :
    (fromLe32 ((data.drop pos).take 4)).toNat = fieldAt data pos 4 := by
  have := fromLe32_slice data pos h
  rwa [slice, Nat.add_sub_cancel_left] at this

theorem take2_field {data : Bytes} {pos : Nat} (h : pos + 2 ≤ data.length) :
    (fromLe16 ((data.drop pos).take 2)).toNat = fieldAt data pos 2 := by
  have := fromLe16_slice data pos h
  rwa [slice, Nat.add_sub_cancel_left] at this

theorem Runs.signature_eof {data : Bytes} {pos : Nat} {sig : UInt32} (h : data.length < pos + 4) :
    ∃ p, Runs (AsyncZip.assertSignature sig) data pos (.error endOfFile) p :=
  ⟨_, Runs.bind_error (Runs.readExact_eof (by rw [List.length_drop]; omega))⟩

theorem Runs.signature_wrong {data : Bytes} {pos : Nat} {sig actual : UInt32} (h : pos + 4 ≤ data.length)
    (hs : ¬ OccursAt data (le32 sig) pos) (ha : actual.toNat = fieldAt data pos 4) :
    ∃ p, Runs (AsyncZip.assertSignature sig) data pos (.error (.err (.unexpectedHeaderError actual sig))) p := by
  have hb : ((data.drop pos).take 4).length = 4 := by rw [List.length_take, List.length_drop]; omega
  have hr : fromLe32 ((data.drop pos).take 4) = actual := UInt32.toNat_inj.1 (by
    rw [take4_field h, ha])
  refine Runs.andThen (Runs.readExact rfl hb) ⟨_, Runs.ite_neg (pos' := pos + 4) ?_ ?_⟩
  · intro he
    apply hs
    unfold OccursAt
    rw [← he, le32_fromLe32 _ hb, hb]
  · rw [hr]; exact Runs.fail

theorem Runs.signature_there {data : Bytes} {pos : Nat} {sig : UInt32} (hs : OccursAt data (le32 sig) pos) :
    Runs (AsyncZip.assertSignature sig) data pos (.ok ()) (pos + 4) := by
  apply Runs.assertSignature (rest := data.drop (pos + 4))
  unfold OccursAt at hs
  rw [← hs, show (le32 sig).length = 4 from rfl, ← List.drop_drop]
  exact (List.take_append_drop _ _).symm

theorem BadRecord.runs {b : Build} {data : Bytes} {off : Nat} {e : Fail} (h : BadRecord b.overflowChecks data off e) :
    ∃ pos', Runs (cdRecord b) data off (.error e) pos' := by
  have hc : le32 CDH_SIGNATURE = sigCentral := by decide
  cases h with
  | gone h =>
    obtain ⟨p, hp⟩ := Runs.signature_eof (sig := CDH_SIGNATURE) h
    exact ⟨p, Runs.bind_error hp⟩
  | signature h hs actual ha =>
    obtain ⟨p, hp⟩ := Runs.signature_wrong (sig := CDH_SIGNATURE) h (by rw [hc]; exact hs) ha
    exact ⟨p, Runs.bind_error hp⟩
  | cut hs h =>
    exact ⟨_, Runs.bind (Runs.signature_there (by rw [hc]; exact hs)) (Runs.bind_error (Runs.bind_error
      (Runs.readExact_eof (by rw [List.length_drop]; omega))))⟩
  | method h hs id hid hm =>
    have hb : ((data.drop (off + 4)).take 42).length = 42 := by rw [List.length_take, List.length_drop]; omega
    have hv : (CentralDirectoryRecord.ofBytes ((data.drop (off + 4)).take 42)).compression = id := UInt16.toNat_inj.1 (by
      rw [hid]; exact read16 (data := data) (pos := off + 4) rfl hb 6 (by omega))
    refine Runs.andThen (Runs.signature_there (by rw [hc]; exact hs)) (Runs.andThen
      (a := CentralDirectoryRecord.ofBytes ((data.drop (off + 4)).take 42)) (Runs.bind (Runs.readExact rfl hb) Runs.pure) ?_)
    refine Runs.andThen (Runs.readBytes rfl) ?_
    exact ⟨_, Runs.bind_error (e := .err (.compressionNotSupported id)) (Runs.liftErr (by rw [hv, compression_unknown hm]))⟩
  | extra h hs hm e hx =>
    obtain ⟨c, hm⟩ := hm
    have hb : ((data.drop (off + 4)).take 42).length = 42 := by rw [List.length_take, List.length_drop]; omega
    generalize hhb : (data.drop (off + 4)).take 42 = hd at hb
    have r16 := fun i h => read16 (data := data) (pos := off + 4) hhb.symm hb i h
    have hn : (CentralDirectoryRecord.ofBytes hd).fileNameLength.toNat = fieldAt data (off + 28) 2 := r16 24 (by omega)
    have hxl : (CentralDirectoryRecord.ofBytes hd).extraFieldLength.toNat = fieldAt data (off + 30) 2 := r16 26 (by omega)
    have hmm : Compression.tryFrom (CentralDirectoryRecord.ofBytes hd).compression = .ok c := by
      apply compression_known
      rw [show (CentralDirectoryRecord.ofBytes hd).compression.toNat = fieldAt data (off + 10) 2 from r16 6 (by omega)]
      exact hm
    have w1 := window_step (data := data) (p := off + 4 + 42) (q := off + 46) (n := fieldAt data (off + 28) 2)
      (Or.inl (by omega))
    have w2 := window_step (n := fieldAt data (off + 30) 2) w1.2
    refine Runs.andThen (Runs.signature_there (by rw [hc]; exact hs)) (Runs.andThen
      (a := CentralDirectoryRecord.ofBytes hd) (Runs.bind (Runs.readExact hhb hb) Runs.pure) ?_)
    simp only []
    rw [hn, hxl]
    refine Runs.andThen (Runs.readBytes rfl) ?_
    refine Runs.andThen (Runs.liftOk hmm) ?_
    refine Runs.andThen (Runs.readBytes rfl) ?_
    have hp := BadExtra.parse (CentralDirectoryRecord.ofBytes hd).uncompressedSize
      (CentralDirectoryRecord.ofBytes hd).compressedSize hx
    rw [← w2.1] at hp
    exact ⟨_, Runs.bind_error (Runs.liftErr hp)⟩

theorem record_total (checks : Bool) (data : Bytes) (off : Nat) :
    GoodRecord data off ∨ ∃ e, BadRecord checks data off e := by
  by_cases h4 : data.length < off + 4
  · exact Or.inr ⟨_, .gone h4⟩
  have hb : ((data.drop off).take 4).length = 4 := by rw [List.length_take, List.length_drop]; omega
  by_cases hs : OccursAt data sigCentral off
  · by_cases h46 : data.length < off + 46
    · exact Or.inr ⟨_, .cut hs h46⟩
    have hb : ((data.drop (off + 10)).take 2).length = 2 := by rw [List.length_take, List.length_drop]; omega
    by_cases hm : ∃ c, (c, fieldAt data (off + 10) 2) ∈ methodTable
    · rcases extra_total checks (window data (off + 46 + fieldAt data (off + 28) 2) (fieldAt data (off + 30) 2)) with
        hx | ⟨e, hx⟩
      · exact Or.inl ⟨by omega, hs, hm, hx⟩
      · exact Or.inr ⟨e, .extra (by omega) hs hm e hx⟩
    · have hid : (fromLe16 ((data.drop (off + 10)).take 2)).toNat = fieldAt data (off + 10) 2 := by
        exact take2_field (by omega)
      exact Or.inr ⟨_, .method (by omega) hs (fromLe16 ((data.drop (off + 10)).take 2)) hid
        fun c hc => hm ⟨c, by rw [← hid]; exact hc⟩⟩
  · exact Or.inr ⟨_, .signature (by omega) hs (fromLe32 ((data.drop off).take 4)) (take4_field (by omega))⟩

theorem FirstBad.runs {b : Build} {data : Bytes} {off n : Nat} {e : Fail} (h : FirstBad b.overflowChecks data off n e) :
    ∃ pos', Runs (cdLoop b n) data off (.error e) pos' := by
  induction h with
  | here off n e h =>
    obtain ⟨p, hp⟩ := BadRecord.runs h
    exact ⟨p, Runs.cdLoop_error hp⟩
  | later off n e h hs ih =>
    obtain ⟨x, p, hr, hp⟩ := GoodRecord.runs b h
    rcases hp with rfl | ⟨hp, hp'⟩
    · obtain ⟨p', hp'⟩ := ih
      exact ⟨p', Runs.bind hr (Runs.bind_error hp')⟩
    · have hgone : e = endOfFile ∧ ∃ m, n = m + 1 := by
        cases hs with
        | here _ m _ hb =>
          refine ⟨?_, m, rfl⟩
          cases hb with
          | gone h => rfl
          | signature h => omega
          | cut hs h => rfl
          | method h => omega
          | extra h => omega
        | later _ m _ hg _ =>
          have := hg.fits
          omega
      obtain ⟨rfl, m, rfl⟩ := hgone
      obtain ⟨p', hp'⟩ := Runs.signature_eof (sig := CDH_SIGNATURE) (data := data) (pos := p) (by omega)
      exact ⟨p', Runs.bind hr (Runs.bind_error (Runs.cdLoop_error (Runs.bind_error hp')))⟩

theorem records_total (checks : Bool) (data : Bytes) (n : Nat) : ∀ off,
    GoodRecords data off n ∨ ∃ e, FirstBad checks data off n e := by
  induction n with
  | zero => exact fun off => Or.inl (.nil off)
  | succ n ih =>
    intro off
    rcases record_total checks data off with h | ⟨e, h⟩
    · rcases ih (off + recordLength data off) with h' | ⟨e, h'⟩
      · exact Or.inl (.cons off n h h')
      · exact Or.inr ⟨e, .later off n e h h'⟩
    · exact Or.inr ⟨e, .here off n e h⟩

/-! ## Outcomes -/

/-- On a source that answers at once and in full, started at `pos`, `m` ends with `r`. -/
def Ends {α : Type} (m : Rd α) (data : Bytes) (pos : Nat) (r : Res α) : Prop := ∀ log, (m ⟨data, pos, none, log⟩).1 = r

theorem Ends.of_runs {α : Type} {m : Rd α} {data : Bytes} {pos : Nat} {r : Res α} (h : ∃ p, Runs m data pos r p) :
    Ends m data pos r := by
  intro log
  obtain ⟨p, h⟩ := h
  obtain ⟨l, e⟩ := h log
  rw [e]

theorem Ends.bind {α β : Type} {m : Rd α} {f : α → Rd β} {data : Bytes} {pos pos1 : Nat} {a : α} {r : Res β}
    (hm : Runs m data pos (.ok a) pos1) (hf : Ends (f a) data pos1 r) : Ends (m >>= f) data pos r := by
  intro log
  obtain ⟨l1, h1⟩ := hm log
  rw [bind_of_ok h1]
  exact hf l1

theorem Ends.bind_any {α β : Type} {m : Rd α} {f : α → Rd β} {data : Bytes} {pos : Nat} {a : α} {r : Res β}
    (hm : ∀ log, ∃ pos1 log', m ⟨data, pos, none, log⟩ = (.ok a, ⟨data, pos1, none, log'⟩))
    (hf : ∀ pos1, Ends (f a) data pos1 r) : Ends (m >>= f) data pos r := by
  intro log
  obtain ⟨p1, l1, h1⟩ := hm log
  rw [bind_of_ok h1]
  exact hf p1 l1

theorem Ends.bind_error {α β : Type} {m : Rd α} {f : α → Rd β} {data : Bytes} {pos : Nat} {e : Fail}
    (hm : Ends m data pos (.error e)) : Ends (m >>= f) data pos (.error e) := by
  intro log
  have := hm log
  rw [bind_def]
  cases hx : m ⟨data, pos, none, log⟩ with
  | mk r s =>
    rw [hx] at this
    simp only at this
    subst this
    rfl

theorem Ends.ite_pos {α : Type} {c : Prop} [Decidable c] {m m' : Rd α} {data : Bytes} {pos : Nat} {r : Res α} (hc : c)
    (h : Ends m data pos r) : Ends (if c then m else m') data pos r := by
  rw [if_pos hc]; exact h

theorem Ends.ite_neg {α : Type} {c : Prop} [Decidable c] {m m' : Rd α} {data : Bytes} {pos : Nat} {r : Res α} (hc : ¬ c)
    (h : Ends m' data pos r) : Ends (if c then m else m') data pos r := by
  rw [if_neg hc]; exact h

/-- So it ends under any schedule that does not interrupt it. -/
theorem Ends.of_chunkIndep {α : Type} {m : Rd α} (hc : ChunkIndep m) {s : RState} {r : Res α}
    (h : Ends m s.data s.pos r) : Interrupted (m s).1 ∨ (m s).1 = r := by
  cases hx : m ⟨s.data, s.pos, none, []⟩ with
  | mk r' s' =>
    have := h []
    rw [hx] at this
    simp only at this
    subst this
    obtain ⟨data, pos, sched, log⟩ := s
    cases sched with
    | none => exact Or.inr (h log)
    | some rs =>
      rcases hc data pos log [] rs with h' | ⟨h', _⟩
      · exact Or.inl h'
      · rw [h', hx]
        exact Or.inr rfl

/-! ## The end records -/

theorem locateEocdr_none {data : Bytes} (h : ∀ j, OccursAt data sigEnd j → j + reach < data.length) (pos : Nat) :
    Ends locateEocdr data pos (.error (.err .unableToLocateEOCDR)) := by
  intro log
  have hq : ¬ Interrupted (locateEocdr ⟨data, pos, none, log⟩).1 := by
    unfold locateEocdr
    rw [bind_of_ok (show seekEnd ⟨data, pos, none, log⟩ = _ from rfl)]
    rw [bind_of_ok (show seekStart _ ⟨data, _, none, _⟩ = _ from rfl)]
    exact eocdrLoop_quiet _ _ _ rfl
  cases hx : locateEocdr ⟨data, pos, none, log⟩ with
  | mk r s' =>
    rw [hx] at hq
    rcases locateEocdr_reach _ _ _ hx with ⟨j, hr, ho, hl, hn⟩ | ⟨hr, hn⟩ | hi
    · have h1 := h j ho
      simp only [reach] at h1
      simp only at hn
      omega
    · exact hr
    · exact absurd hi hq

theorem Ends.readCombined_locator (b : Build) {data : Bytes} {j : Nat} (hj : j + 22 ≤ data.length) (hl : HasLocator data j)
    (eo : EndOfCentralDirectoryHeader) (p : Nat) {e : Fail}
    (h : (addU64 b (zip64End data j) SIGNATURE_LENGTH = .error e) ∨
      (addU64 b (zip64End data j) SIGNATURE_LENGTH = .ok (zip64End data j + 4) ∧ e = endOfFile ∧
        data.length < zip64End data j + 56)) :
    Ends (readCombined b (j + 4) eo) data p (.error e) := by
  have h20 := hl.1
  have hb : ((data.drop (j - 20 + 4)).take 16).length = 16 := by rw [List.length_take, List.length_drop]; omega
  have hrel : (Zip64EndOfCentralDirectoryLocator.ofBytes ((data.drop (j - 20 + 4)).take 16)).relativeOffset.toNat =
      zip64End data j := by
    have := read64 (data := data) (pos := j - 20 + 4) rfl hb 4 (by omega)
    rw [show j - 20 + 4 + 4 = j - 20 + 8 by omega] at this
    exact this
  unfold readCombined
  refine Ends.ite_neg (by simp only [ZIP64_EOCDL_LENGTH, SIGNATURE_LENGTH]; omega) ?_
  refine Ends.bind Runs.seekStart ?_
  rw [show j + 4 - (ZIP64_EOCDL_LENGTH + SIGNATURE_LENGTH) = j - 20 by
    simp only [ZIP64_EOCDL_LENGTH, SIGNATURE_LENGTH]; omega]
  refine Ends.bind (a := some (Zip64EndOfCentralDirectoryLocator.ofBytes ((data.drop (j - 20 + 4)).take 16)))
    (pos1 := j - 20 + 4 + 16) ?_ ?_
  · unfold Zip64EndOfCentralDirectoryLocator.tryFromReader
    refine Runs.bind (Runs.readExact (n := 4) (b := sigLocator) hl.2 rfl) ?_
    refine Runs.ite_neg (by decide) ?_
    exact Runs.bind (Runs.readExact rfl hb) Runs.pure
  · simp only []
    rw [hrel]
    rcases h with h | ⟨h, rfl, hlen⟩
    · exact Ends.bind_error fun log => by rw [h]; rfl
    · refine Ends.bind (Runs.liftOk h) (Ends.bind Runs.seekStart (Ends.bind_error (Ends.bind_error ?_)))
      refine Ends.of_runs ⟨_, Runs.readExact_eof ?_⟩
      rw [List.length_drop]
      clear h hrel
      generalize zip64End data j = z at *
      omega

theorem Refused.ends {b : Build} {data : Bytes} {e : Fail} (h : Refused b.overflowChecks b.maxVecEntries data e)
    (hlen : data.length < 2 ^ 64) (pos : Nat) : Ends (openFile b) data pos (.error e) := by
  have upto : ∀ {j : Nat}, LastEnd data j → data.length ≤ j + reach → j + 22 ≤ data.length →
      (∀ p, Ends (readCombined b (j + 4) (EndOfCentralDirectoryHeader.ofBytes ((data.drop (j + 4)).take 18))) data p
        (.error e)) → Ends (openFile b) data pos (.error e) := by
    intro j hl hn hc hf
    have hb : ((data.drop (j + 4)).take 18).length = 18 := by rw [List.length_take, List.length_drop]; omega
    unfold openFile
    refine Ends.bind_any (locateEocdr_ideal hl.1 hl.2 hn pos) fun p1 => Ends.bind Runs.seekStart ?_
    refine Ends.bind (Runs.bind (Runs.readExact rfl hb) Runs.pure) ?_
    refine Ends.bind (Runs.bind (Runs.readBytes rfl) Runs.pure) ?_
    exact Ends.bind_error (hf _)
  have past : ∀ {j : Nat}, LastEnd data j → data.length ≤ j + reach → j + 22 ≤ data.length →
      (HasLocator data j → zip64End data j + 56 ≤ data.length) →
      (∀ rec : CombinedRecord, rec.diskNumber.toNat = declaredDisk data j →
        rec.diskNumberStartOfCd.toNat = declaredStartDisk data j → rec.numEntriesOnDisk.toNat = declaredEntriesOnDisk data j →
        rec.numEntries.toNat = declaredEntries data j → rec.offsetOfStart.toNat = declaredOffset data j →
        ∀ (z : Bool) (comment : ZipString) p, Ends (if rec.diskNumber ≠ rec.diskNumberStartOfCd ∨ rec.numEntries ≠ rec.numEntriesOnDisk then
            throwErr (.featureNotSupported "Spanned/split files")
          else do
            let _ ← seekStart rec.offsetOfStart.toNat
            let entries ← cd b rec.numEntries.toNat
            pure (ZipFile.mk entries z comment)) data p (.error e)) → Ends (openFile b) data pos (.error e) := by
    intro j hl hn hc hz hf
    have hb : ((data.drop (j + 4)).take 18).length = 18 := by rw [List.length_take, List.length_drop]; omega
    have hz' : HasLocator data j → zip64End data j + 4 < 2 ^ 64 := by
      intro h
      have := hz h
      generalize zip64End data j = z at this
      omega
    obtain ⟨rec, z, hr⟩ := Runs.readCombined_complete b hc hz hz'
      (EndOfCentralDirectoryHeader.ofBytes ((data.drop (j + 4)).take 18))
    obtain ⟨p', h0⟩ := hr 0
    obtain ⟨l, h0⟩ := h0 []
    obtain ⟨_, g2, g3, g4, g5, g6, g7⟩ := readCombined_ok h0 hz' hc rfl
    simp only at g2 g3 g4 g5 g6 g7
    unfold openFile
    refine Ends.bind_any (locateEocdr_ideal hl.1 hl.2 hn pos) fun p1 => Ends.bind Runs.seekStart ?_
    refine Ends.bind (Runs.bind (Runs.readExact rfl hb) Runs.pure) ?_
    refine Ends.bind (Runs.bind (Runs.readBytes rfl) Runs.pure) ?_
    refine Ends.bind_any (a := (rec, z)) (fun log => ?_) fun p2 => hf rec g3 g4 g5 g6 g7 z _ p2
    obtain ⟨p', h1⟩ := hr _
    obtain ⟨l', h1⟩ := h1 log
    exact ⟨p', l', h1⟩
  cases h with
  | noEnd h => exact Ends.bind_error (locateEocdr_none h pos)
  | endCut j hl hn h =>
    unfold openFile
    refine Ends.bind_any (locateEocdr_ideal hl.1 hl.2 hn pos) fun p1 => Ends.bind Runs.seekStart ?_
    exact Ends.bind_error (Ends.bind_error (Ends.of_runs ⟨_, Runs.readExact_eof (by rw [List.length_drop]; omega)⟩))
  | zip64Cut j hl hn hc hz hf h =>
    refine upto hl hn hc fun p => Ends.readCombined_locator b hc hz _ p (Or.inr ⟨?_, rfl, h⟩)
    rw [addU64, if_pos (by exact hf)]
    rfl
  | zip64Far j hl hn hc hz hf h =>
    refine upto hl hn hc fun p => Ends.readCombined_locator b hc hz _ p (Or.inl ?_)
    rw [addU64, if_neg (by exact Nat.not_lt.2 hf), if_pos h]
  | split j hl hn hc hz h =>
    refine past hl hn hc hz fun rec g3 g4 g5 g6 g7 z comment p => Ends.ite_pos ?_ fun log => rfl
    refine h.imp (fun h he => h ?_) fun h he => h ?_
    · rw [← g3, ← g4, he]
    · rw [← g5, ← g6, he]
  | tooMany j hl hn hc hz hd hw h =>
    refine past hl hn hc hz fun rec g3 g4 g5 g6 g7 z comment p => Ends.ite_neg ?_ (Ends.bind Runs.seekStart ?_)
    · rintro (h | h)
      · exact h (UInt32.toNat_inj.1 (by rw [g3, g4, hd]))
      · exact h (UInt64.toNat_inj.1 (by rw [g6, g5, hw]))
    · exact Ends.bind_error (Ends.of_runs ⟨_, Runs.cd_capacity (by rw [g6]; exact h)⟩)
  | record j hl hn hc hz hd hw hm e h =>
    refine past hl hn hc hz fun rec g3 g4 g5 g6 g7 z comment p => Ends.ite_neg ?_ (Ends.bind Runs.seekStart ?_)
    · rintro (h | h)
      · exact h (UInt32.toNat_inj.1 (by rw [g3, g4, hd]))
      · exact h (UInt64.toNat_inj.1 (by rw [g6, g5, hw]))
    · obtain ⟨p', hp⟩ := FirstBad.runs h
      refine Ends.bind_error (Ends.of_runs ⟨p', Runs.cd (by rw [g6]; exact hm) ?_⟩)
      rw [g6, g7]
      exact hp

theorem file_total (checks : Bool) (most : Nat) (data : Bytes)
    (hfit : checks = false → ∀ j, LastEnd data j → HasLocator data j → zip64End data j + 4 < 2 ^ 64) :
    (∃ j, Openable most data j) ∨ ∃ e, Refused checks most data e := by
  by_cases hex : ∃ j, LastEnd data j ∧ data.length ≤ j + reach
  · obtain ⟨j, hl, hn⟩ := hex
    by_cases hc : j + 22 ≤ data.length
    · by_cases hz : HasLocator data j → zip64End data j + 56 ≤ data.length
      · by_cases hd : declaredDisk data j = declaredStartDisk data j
        · by_cases hw : declaredEntries data j = declaredEntriesOnDisk data j
          · by_cases hm : declaredEntries data j ≤ most
            · rcases records_total checks data (declaredEntries data j) (declaredOffset data j) with h | ⟨e, h⟩
              · exact Or.inl ⟨j, hl, hn, hc, hz, hd, hw, hm, h⟩
              · exact Or.inr ⟨e, .record j hl hn hc hz hd hw hm e h⟩
            · exact Or.inr ⟨_, .tooMany j hl hn hc hz hd hw (by omega)⟩
          · exact Or.inr ⟨_, .split j hl hn hc hz (Or.inr hw)⟩
        · exact Or.inr ⟨_, .split j hl hn hc hz (Or.inl hd)⟩
      · have : HasLocator data j ∧ ¬ zip64End data j + 56 ≤ data.length := by
          by_cases hh : HasLocator data j
          · exact ⟨hh, fun h => hz fun _ => h⟩
          · exact absurd (fun h => absurd h hh) hz
        by_cases hf : zip64End data j + 4 < 2 ^ 64
        · exact Or.inr ⟨_, .zip64Cut j hl hn hc this.1 hf (Nat.not_le.1 this.2)⟩
        · cases checks with
          | true => exact Or.inr ⟨_, .zip64Far j hl hn hc this.1 (Nat.not_lt.1 hf) rfl⟩
          | false => exact absurd (hfit rfl j hl this.1) hf
    · exact Or.inr ⟨_, .endCut j hl hn (by omega)⟩
  · refine Or.inr ⟨_, .noEnd fun j hj => ?_⟩
    by_contra hlt
    have hbound : ∀ k, OccursAt data sigEnd k → k ≤ data.length := by
      intro k hk
      have := congrArg List.length hk
      rw [List.length_take, List.length_drop, show sigEnd.length = 4 from rfl] at this
      omega
    obtain ⟨m, hm, hmax⟩ : ∃ m, OccursAt data sigEnd m ∧ ∀ k, OccursAt data sigEnd k → k ≤ m := by
      classical
      refine ⟨Nat.findGreatest (fun k => OccursAt data sigEnd k) data.length,
        Nat.findGreatest_spec (hbound j hj) hj, fun k hk => Nat.le_findGreatest (hbound k hk) hk⟩
    exact hex ⟨m, ⟨hm, hmax⟩, by have := hmax j hj; omega⟩

/-! ## Streams -/

theorem BadHeader.ends {b : Build} {data : Bytes} {pos : Nat} {e : Fail} (h : BadHeader b.overflowChecks data pos e) :
    Ends (streamNext b) data pos (.error e) := by
  have at_ : ∀ (hs : OccursAt data sigLocal pos) (hl : pos + 30 ≤ data.length),
      lfhOutcome b (LocalFileHeader.ofBytes (window data (pos + 4) 26)) (window data (pos + 30) (fieldAt data (pos + 26) 2))
        (window data (pos + 30 + fieldAt data (pos + 26) 2) (fieldAt data (pos + 28) 2)) = .error e →
      Ends (streamNext b) data pos (.error e) := by
    intro hs hl ho
    have q1 : (LocalFileHeader.ofBytes (window data (pos + 4) 26)).fileNameLength.toNat = fieldAt data (pos + 26) 2 :=
      lhField hl (i := 22) (by omega)
    have q2 : (LocalFileHeader.ofBytes (window data (pos + 4) 26)).extraFieldLength.toNat = fieldAt data (pos + 28) 2 :=
      lhField hl (i := 24) (by omega)
    obtain ⟨pos', hr, _⟩ := Runs.lfhAt (b := b) (data := data) (pos := pos) (hb := window data (pos + 4) 26)
      (by rw [show LFH_SIGNATURE = 0x04034b50 from rfl]; exact hs) rfl
      (by simp only [window, List.length_take, List.length_drop]; omega) rfl rfl
    rw [q1, q2] at hr
    refine Ends.bind_error (Ends.of_runs ⟨pos', ?_⟩)
    rw [← ho, ← lhExtra]
    exact hr
  cases h with
  | gone h =>
    exact Ends.bind_error (Ends.bind_error (Ends.of_runs ⟨_, Runs.readExact_eof (by rw [List.length_drop]; omega)⟩))
  | signature h hl hc actual ha =>
    have hb : ((data.drop pos).take 4).length = 4 := by rw [List.length_take, List.length_drop]; omega
    have hr : fromLe32 ((data.drop pos).take 4) = actual := UInt32.toNat_inj.1 (by rw [take4_field h, ha])
    have hne : ∀ sig : UInt32, ¬ OccursAt data (le32 sig) pos → fromLe32 ((data.drop pos).take 4) ≠ sig := by
      intro sig hs he
      apply hs
      unfold OccursAt
      rw [← he, le32_fromLe32 _ hb, hb]
    refine Ends.bind_error (Ends.bind (Runs.readExact rfl hb) (Ends.ite_neg (hne _ ?_) (Ends.ite_neg (hne _ ?_) ?_)))
    · rw [show le32 LFH_SIGNATURE = sigLocal by decide]; exact hl
    · rw [show le32 CDH_SIGNATURE = sigCentral by decide]; exact hc
    · intro log
      simp only [hr]
      rfl
  | cut hs h =>
    refine Ends.bind_error (Ends.bind (Runs.readExact (n := 4) (b := sigLocal) hs rfl) (Ends.ite_pos (by decide) ?_))
    exact Ends.bind_error (Ends.bind_error (Ends.of_runs ⟨_, Runs.readExact_eof (by rw [List.length_drop]; omega)⟩))
  | method h hs id hid hm =>
    refine at_ hs h ?_
    have hv : (LocalFileHeader.ofBytes (window data (pos + 4) 26)).compression = id := UInt16.toNat_inj.1 (by
      rw [hid]; exact lhField h (i := 4) (by omega))
    unfold lfhOutcome
    rw [hv, compression_unknown hm]
    rfl
  | extra h hs hm e hx =>
    refine at_ hs h ?_
    obtain ⟨c, hm⟩ := hm
    have hv : (LocalFileHeader.ofBytes (window data (pos + 4) 26)).compression.toNat = fieldAt data (pos + 8) 2 :=
      lhField h (i := 4) (by omega)
    unfold lfhOutcome
    rw [compression_known (hv ▸ hm), BadExtra.parse _ _ hx]
    rfl
  | descriptor h hs hx hd hm =>
    refine at_ hs h ?_
    have hv : (LocalFileHeader.ofBytes (window data (pos + 4) 26)).compression.toNat = fieldAt data (pos + 8) 2 :=
      lhField h (i := 4) (by omega)
    obtain ⟨fs, hfs⟩ := GoodExtra.parse b (LocalFileHeader.ofBytes (window data (pos + 4) 26)).uncompressedSize
      (LocalFileHeader.ofBytes (window data (pos + 4) 26)).compressedSize hx
    unfold lfhOutcome
    rw [compression_known (c := .stored) (by rw [hv, hm]; decide), hfs, lhFlags h, hd]
    rfl
  | encrypted h hs hm hx hd he =>
    refine at_ hs h ?_
    obtain ⟨c, hm⟩ := hm
    have hv : (LocalFileHeader.ofBytes (window data (pos + 4) 26)).compression.toNat = fieldAt data (pos + 8) 2 :=
      lhField h (i := 4) (by omega)
    obtain ⟨fs, hfs⟩ := GoodExtra.parse b (LocalFileHeader.ofBytes (window data (pos + 4) 26)).uncompressedSize
      (LocalFileHeader.ofBytes (window data (pos + 4) 26)).compressedSize hx
    unfold lfhOutcome
    rw [compression_known (hv ▸ hm), hfs, lhFlags h, he]
    simp only [res_ok_bind]
    rw [if_neg, if_pos trivial]
    intro hh
    apply hd
    rw [Bool.and_eq_true, beq_iff_eq] at hh
    refine ⟨hh.1, ?_⟩
    rw [hh.2] at hm
    simpa [methodTable] using hm

/-! ## Getting at an entry -/

theorem BadEntry.ends {data : Bytes} {e : StoredZipEntry} {x : Fail} (h : BadEntry data e.fileOffset x) (pos : Nat) :
    Ends (seekToDataOffset e) data pos (.error x) := by
  unfold AsyncZip.seekToDataOffset
  refine Ends.bind Runs.seekStart ?_
  cases h with
  | gone h => exact Ends.bind_error (Ends.of_runs ⟨_, Runs.readExact_eof (by rw [List.length_drop]; omega)⟩)
  | signature h hs actual ha =>
    have hb : ((data.drop e.fileOffset).take 4).length = 4 := by rw [List.length_take, List.length_drop]; omega
    have hr : fromLe32 ((data.drop e.fileOffset).take 4) = actual := UInt32.toNat_inj.1 (by rw [take4_field h, ha])
    refine Ends.bind (Runs.readExact rfl hb) (Ends.ite_neg ?_ ?_)
    · rw [fromLe32_eq_iff hb]
      exact fun h => hs h
    · intro log
      simp only [hr]
      rfl
  | cut hs h =>
    refine Ends.bind (Runs.readExact (n := 4) (b := sigLocal) hs rfl) (Ends.ite_pos (by decide) ?_)
    exact Ends.bind_error (Ends.bind_error (Ends.of_runs ⟨_, Runs.readExact_eof (by rw [List.length_drop]; omega)⟩))

theorem entry_total (data : Bytes) (off : Nat) :
    (OccursAt data sigLocal off ∧ off + 30 ≤ data.length) ∨ ∃ x, BadEntry data off x := by
  by_cases h4 : data.length < off + 4
  · exact Or.inr ⟨_, .gone h4⟩
  by_cases hs : OccursAt data sigLocal off
  · by_cases h30 : data.length < off + 30
    · exact Or.inr ⟨_, .cut hs h30⟩
    · exact Or.inl ⟨hs, by omega⟩
  · exact Or.inr ⟨_, .signature (by omega) hs (fromLe32 ((data.drop off).take 4)) (take4_field (by omega))⟩

theorem header_total (checks : Bool) (data : Bytes) (pos : Nat) :
    GoodHeader data pos ∨ OccursAt data sigCentral pos ∨ ∃ e, BadHeader checks data pos e := by
  by_cases h4 : data.length < pos + 4
  · exact Or.inr (Or.inr ⟨_, .gone h4⟩)
  by_cases hc : OccursAt data sigCentral pos
  · exact Or.inr (Or.inl hc)
  by_cases hs : OccursAt data sigLocal pos
  · by_cases h30 : data.length < pos + 30
    · exact Or.inr (Or.inr ⟨_, .cut hs h30⟩)
    by_cases hm : ∃ c, (c, fieldAt data (pos + 8) 2) ∈ methodTable
    · rcases extra_total checks (window data (pos + 30 + fieldAt data (pos + 26) 2) (fieldAt data (pos + 28) 2)) with
        hx | ⟨e, hx⟩
      · by_cases hd : (fieldAt data (pos + 6) 2).testBit 3 = true ∧ fieldAt data (pos + 8) 2 = 0
        · exact Or.inr (Or.inr ⟨_, .descriptor (by omega) hs hx hd.1 hd.2⟩)
        · cases he : (fieldAt data (pos + 6) 2).testBit 0 with
          | true => exact Or.inr (Or.inr ⟨_, .encrypted (by omega) hs hm hx hd he⟩)
          | false => exact Or.inl ⟨by omega, hs, he, hm, hd, hx⟩
      · exact Or.inr (Or.inr ⟨e, .extra (by omega) hs hm e hx⟩)
    · have hid : (fromLe16 ((data.drop (pos + 8)).take 2)).toNat = fieldAt data (pos + 8) 2 := take2_field (by omega)
      exact Or.inr (Or.inr ⟨_, .method (by omega) hs (fromLe16 ((data.drop (pos + 8)).take 2)) hid
        fun c hc => hm ⟨c, by rw [← hid]; exact hc⟩⟩)
  · exact Or.inr (Or.inr ⟨_, .signature (by omega) hs hc (fromLe32 ((data.drop pos).take 4)) (take4_field (by omega))⟩)

end AsyncZip
