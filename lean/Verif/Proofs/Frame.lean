import Verif.Spec.Frame
import Verif.Proofs.Own
import Verif.Proofs.OpenSpec
/-!
# Opening looks at the end records and the directory only
-/

namespace AsyncZip
open Spec Rd

/-- A reader at `q`, or past the end of both files. -/
def AtIn (s : RState) (b : Bytes) (q : Nat) : Prop := s.pos = q ∨ (s.data.length ≤ s.pos ∧ b.length ≤ s.pos)

theorem SameOn.lift {α : Type} {r : Res α} {s : RState} {b : Bytes} : SameOn (Rd.lift r) s b := rfl
theorem SameOn.fail {α : Type} {e : Fail} {s : RState} {b : Bytes} : SameOn (Rd.fail e : Rd α) s b := rfl

theorem window_past {data : Bytes} {p n : Nat} (h : data.length ≤ p) : window data p n = [] := by
  rw [window, List.drop_eq_nil_of_le h, List.take_nil]

theorem AtIn.window {s : RState} {b : Bytes} {q n : Nat} (h : AtIn s b q) (hw : Spec.window s.data q n = Spec.window b q n) :
    Spec.window s.data s.pos n = Spec.window b s.pos n := by
  rcases h with h | ⟨h1, h2⟩
  · rw [h]; exact hw
  · rw [window_past h1, window_past h2]

theorem readUpToLoop_on (need : Nat) : ∀ (acc : Bytes) (s : RState) (b : Bytes),
    window s.data s.pos need = window b s.pos need → SameOn (readUpToLoop need acc) s b := by
  induction need using Nat.strongRecOn with
  | _ need ih =>
  intro acc s b h
  rw [readUpToLoop]
  split
  · exact SameOn.pure
  · refine SameOn.bind (readOnce_on h) fun x s' hx => ?_
    split
    · exact SameOn.pure
    · obtain ⟨k, k1, k2, k3, k4, k5⟩ := readOnce_ok hx
      have := readOnce_length_le hx
      refine ih _ (by omega) _ _ _ ?_
      rw [k4, k5]
      exact window_agree h (by omega) (by omega)

/-- The same on `b`, and `P` of what comes out. -/
def SameTo {α : Type} (m : Rd α) (s : RState) (b : Bytes) (P : α → RState → Prop) : Prop :=
  SameOn m s b ∧ ∀ a s', m s = (.ok a, s') → P a s'

theorem SameTo.bind {α β : Type} {m : Rd α} {f : α → Rd β} {s : RState} {b : Bytes} {P : α → RState → Prop}
    {Q : β → RState → Prop} (h : SameTo m s b P) (hf : ∀ a s', P a s' → SameTo (f a) s' b Q) : SameTo (m >>= f) s b Q := by
  refine ⟨SameOn.bind h.1 fun a s' ha => (hf a s' (h.2 a s' ha)).1, fun c s'' hc => ?_⟩
  obtain ⟨a, s', h1, h2⟩ := bind_ok_iff.1 hc
  exact (hf a s' (h.2 a s' h1)).2 c s'' h2

theorem SameTo.pure {α : Type} {a : α} {s : RState} {b : Bytes} {P : α → RState → Prop} (h : P a s) :
    SameTo (Pure.pure a : Rd α) s b P := by
  refine ⟨SameOn.pure, fun a' s' h' => ?_⟩
  cases h'
  exact h

theorem SameTo.throwErr {α : Type} {e : ZipError} {s : RState} {b : Bytes} {P : α → RState → Prop} :
    SameTo (Rd.throwErr e : Rd α) s b P := ⟨SameOn.throwErr, fun _ _ h => by cases h⟩
theorem SameTo.fail {α : Type} {e : Fail} {s : RState} {b : Bytes} {P : α → RState → Prop} :
    SameTo (Rd.fail e : Rd α) s b P := ⟨SameOn.fail, fun _ _ h => by cases h⟩

theorem SameTo.lift {α : Type} {r : Res α} {s : RState} {b : Bytes} {P : α → RState → Prop} (h : ∀ a, r = .ok a → P a s) :
    SameTo (Rd.lift r) s b P := by
  refine ⟨SameOn.lift, fun a s' h' => ?_⟩
  obtain ⟨h1, rfl⟩ := lift_ok h'
  exact h a h1

theorem SameTo.ite {α : Type} {c : Prop} [Decidable c] {m m' : Rd α} {s : RState} {b : Bytes} {P : α → RState → Prop}
    (h : c → SameTo m s b P) (h' : ¬ c → SameTo m' s b P) : SameTo (if c then m else m') s b P := by
  split
  · exact h ‹_›
  · exact h' ‹_›

theorem SameTo.seekTo {t : Nat} {s : RState} {b : Bytes} :
    SameTo (Rd.seekTo t) s b fun _ s' => s'.data = s.data ∧ AtIn s' b t :=
  ⟨seekTo_on t s b, fun _ _ h => ⟨(seekTo_ok h).2.1, Or.inl (seekTo_ok h).2.2⟩⟩

theorem SameTo.readBytes {n q : Nat} {s : RState} {b : Bytes} (h : AtIn s b q) (hw : window s.data q n = window b q n) :
    SameTo (Rd.readBytes n) s b fun _ s' => s'.data = s.data ∧ AtIn s' b (q + n) := by
  refine ⟨readUpToLoop_on n [] s b (h.window hw), fun x s' hx => ?_⟩
  obtain ⟨h1, h2, h3⟩ := readBytes_ok hx
  refine ⟨h2, ?_⟩
  unfold AtIn
  rw [h2, h3]
  rcases h with h | ⟨h4, h5⟩
  · have e1 : x.length = min n (s.data.length - q) := by rw [h1, h, List.length_take, List.length_drop]
    have e2 := congrArg List.length hw
    simp only [window, List.length_take, List.length_drop] at e2
    omega
  · exact Or.inr (by omega)

theorem SameTo.readExact {n q : Nat} {s : RState} {b : Bytes} (h : AtIn s b q) (hw : window s.data q n = window b q n)
    (hn : 0 < n) : SameTo (Rd.readExact n) s b fun x s' =>
      x = window s.data q n ∧ x.length = n ∧ s'.data = s.data ∧ AtIn s' b (q + n) := by
  refine ⟨readExact_on (h.window hw), fun x s' hx => ?_⟩
  obtain ⟨h1, h2, h3, h4⟩ := readExact_ok hx
  have hq : s.pos = q := by
    refine h.resolve_right fun hp => ?_
    rw [List.drop_eq_nil_of_le hp.1, List.take_nil] at h1
    rw [h1] at h2
    exact absurd h2 (by simp only [List.length_nil]; omega)
  exact ⟨by rw [h1, hq]; rfl, h2, h3, Or.inl (by omega)⟩

theorem cdRecord_on {B : Build} {s : RState} {b : Bytes} {q : Nat} (h : AtIn s b q)
    (hw : window s.data q (recordLength s.data q) = window b q (recordLength s.data q)) :
    SameTo (cdRecord B) s b fun _ s' => s'.data = s.data ∧ AtIn s' b (q + recordLength s.data q) := by
  have hL : recordLength s.data q = 46 + fieldAt s.data (q + 28) 2 + fieldAt s.data (q + 30) 2 + fieldAt s.data (q + 32) 2 := rfl
  have sub : ∀ p n, q ≤ p → p + n ≤ q + recordLength s.data q → window s.data p n = window b p n :=
    fun p n h1 h2 => window_agree hw h1 h2
  unfold cdRecord
  refine SameTo.bind (P := fun _ s' => s'.data = s.data ∧ AtIn s' b (q + 4)) ?_ ?_
  · refine SameTo.bind (SameTo.readExact h (sub _ _ (by omega) (by omega)) (by omega)) fun x s' hx => ?_
    exact SameTo.ite (fun _ => SameTo.pure ⟨hx.2.2.1, hx.2.2.2⟩) fun _ => SameTo.throwErr
  rintro _ s1 ⟨d1, p1⟩
  refine SameTo.bind (P := fun hd s' => ∃ hb, hd = CentralDirectoryRecord.ofBytes hb ∧ hb = window s.data (q + 4) 42 ∧
    hb.length = 42 ∧ s'.data = s.data ∧ AtIn s' b (q + 46)) ?_ ?_
  · refine SameTo.bind (SameTo.readExact p1 (by rw [d1]; exact sub _ _ (by omega) (by omega)) (by omega)) fun x s' hx => ?_
    rw [d1] at hx
    exact SameTo.pure ⟨x, rfl, hx.1, hx.2.1, hx.2.2.1, by rw [show q + 46 = q + 4 + 42 by omega]; exact hx.2.2.2⟩
  rintro _ s2 ⟨hb, rfl, b1, b2, d2, p2⟩
  have r16 := fun i h => read16 (data := s.data) (pos := q + 4) b1 b2 i h
  have hn : (CentralDirectoryRecord.ofBytes hb).fileNameLength.toNat = fieldAt s.data (q + 28) 2 := r16 24 (by omega)
  have hx : (CentralDirectoryRecord.ofBytes hb).extraFieldLength.toNat = fieldAt s.data (q + 30) 2 := r16 26 (by omega)
  have hc : (CentralDirectoryRecord.ofBytes hb).fileCommentLength.toNat = fieldAt s.data (q + 32) 2 := r16 28 (by omega)
  refine SameTo.bind (SameTo.readBytes p2 (by rw [d2]; exact sub _ _ (by omega) (by omega))) ?_
  rintro x3 s3 ⟨d3, p3⟩
  rw [d2] at d3
  refine SameTo.bind (SameTo.lift (P := fun _ s' => s'.data = s.data ∧ AtIn s' b _) fun _ _ => ⟨d3, p3⟩) ?_
  rintro x4 s4 ⟨d4, p4⟩
  refine SameTo.bind (SameTo.readBytes p4 (by rw [d4]; exact sub _ _ (by omega) (by omega))) ?_
  rintro x5 s5 ⟨d5, p5⟩
  rw [d4] at d5
  refine SameTo.bind (SameTo.lift (P := fun _ s' => s'.data = s.data ∧ AtIn s' b _) fun _ _ => ⟨d5, p5⟩) ?_
  rintro x6 s6 ⟨d6, p6⟩
  refine SameTo.bind (SameTo.readBytes p6 (by rw [d6]; exact sub _ _ (by omega) (by omega))) ?_
  rintro x7 s7 ⟨d7, p7⟩
  rw [d6] at d7
  rw [hn, hx, hc] at p7
  refine SameTo.pure ⟨d7, ?_⟩
  unfold AtIn at p7 ⊢
  omega

theorem cdLoop_on {B : Build} (n : Nat) : ∀ {s : RState} {b : Bytes} {q : Nat}, AtIn s b q →
    window s.data q (recordsLength s.data q n) = window b q (recordsLength s.data q n) → SameOn (cdLoop B n) s b := by
  induction n with
  | zero => intro s b q _ _; exact SameOn.pure
  | succ n ih =>
    intro s b q h hw
    have w := cdRecord_on (B := B) h (window_agree hw (Nat.le_refl _) (by simp only [recordsLength]; omega))
    refine SameOn.bind w.1 fun e s' he => ?_
    obtain ⟨hd, hp⟩ := w.2 _ _ he
    refine SameOn.bind (ih hp ?_) fun _ _ _ => SameOn.pure
    rw [hd]
    exact window_agree hw (by omega) (by simp only [recordsLength]; omega)

theorem locator_on {a b : Bytes} {j : Nat} (h : window a (j - 20) 20 = window b (j - 20) 20) (h20 : 20 ≤ j) {s : RState}
    (hs : s.data = a) (hp : AtIn s b (j - 20)) :
    SameTo Zip64EndOfCentralDirectoryLocator.tryFromReader s b fun o s' => s'.data = a ∧
      ∀ l, o = some l → HasLocator a j ∧ l.relativeOffset.toNat = zip64End a j := by
  subst hs
  unfold Zip64EndOfCentralDirectoryLocator.tryFromReader
  refine SameTo.bind (SameTo.readExact hp (window_agree h (by omega) (by omega)) (by omega)) ?_
  rintro x s1 ⟨x1, x2, d1, p1⟩
  refine SameTo.ite (fun _ => SameTo.pure ⟨d1, fun l h => by cases h⟩) fun hne => ?_
  refine SameTo.bind (SameTo.readExact p1 (by rw [d1]; exact window_agree h (by omega) (by omega)) (by omega)) ?_
  rintro y s2 ⟨y1, y2, d2, p2⟩
  rw [d1] at y1 d2
  refine SameTo.pure ⟨d2, fun l hl => ?_⟩
  cases hl
  refine ⟨⟨h20, ?_⟩, ?_⟩
  · have : fromLe32 x = ZIP64_EOCDL_SIGNATURE := by
      by_contra hc
      exact hne hc
    rw [fromLe32_eq_iff x2] at this
    rw [OccursAt]
    exact x1.symm.trans this
  · rw [zip64End, show j - 20 + 8 = j - 20 + 4 + 4 by omega]
    exact read64 y1 y2 4 (by omega)

/-- What `file` does once it knows where the end record is (`src/base/read/mod.rs:44-82`). -/
def openRest (B : Build) (eocdrOffset : Nat) : Rd ZipFile := do
  let _ ← seekStart eocdrOffset
  let eocdr ← EndOfCentralDirectoryHeader.fromReader
  let comment ← readString eocdr.fileCommLength.toNat .utf8
  let (rec, zip64) ← readCombined B eocdrOffset eocdr
  if rec.diskNumber ≠ rec.diskNumberStartOfCd ∨ rec.numEntries ≠ rec.numEntriesOnDisk then
    throwErr (.featureNotSupported "Spanned/split files")
  else do
    let _ ← seekStart rec.offsetOfStart.toNat
    let entries ← cd B rec.numEntries.toNat
    pure { entries, zip64, comment }

theorem openFile_eq (B : Build) : openFile B = locateEocdr >>= openRest B := rfl

theorem SameIndex.directoryOnly {a b : Bytes} {j : Nat} (h : SameIndex a b j) : SameDirectory a b j :=
  ⟨h.end_a, h.end_b, h.near_a, h.near_b, h.before, window_agree h.record (by omega) (by omega), h.zip64, h.directory⟩

theorem readCombined_on {B : Build} {j : Nat} {e : EndOfCentralDirectoryHeader} {s : RState} {b : Bytes}
    (h : SameDirectory s.data b j) : SameOn (readCombined B (j + 4) e) s b := by
  unfold readCombined
  refine (SameTo.ite (P := fun _ _ => True) (fun _ => SameTo.pure trivial) fun hge => ?_).1
  simp only [ZIP64_EOCDL_LENGTH, SIGNATURE_LENGTH] at hge
  have h20 : 20 ≤ j := by omega
  rw [show j + 4 - (ZIP64_EOCDL_LENGTH + SIGNATURE_LENGTH) = j - 20 by
    simp only [ZIP64_EOCDL_LENGTH, SIGNATURE_LENGTH]; omega]
  refine SameTo.bind SameTo.seekTo ?_
  rintro _ s1 ⟨d1, p1⟩
  refine SameTo.bind (locator_on h.before h20 d1 p1) ?_
  rintro o s2 ⟨d2, hl⟩
  cases o with
  | none => exact SameTo.pure trivial
  | some l =>
    obtain ⟨hl1, hl2⟩ := hl l rfl
    obtain ⟨hz1, hz2⟩ := h.zip64 hl1
    have hadd : addU64 B l.relativeOffset.toNat SIGNATURE_LENGTH = .ok (zip64End s.data j + 4) := by
      rw [addU64, SIGNATURE_LENGTH, hl2, if_pos hz1]
    dsimp only
    rw [hadd]
    refine SameTo.bind (SameTo.lift (P := fun t s' => t = zip64End s.data j + 4 ∧ s'.data = s.data)
      fun a ha => ⟨by cases ha; rfl, d2⟩) ?_
    rintro _ s3 ⟨rfl, d3⟩
    refine SameTo.bind SameTo.seekTo ?_
    rintro _ s4 ⟨d4, p4⟩
    rw [d3] at d4
    refine SameTo.bind (P := fun _ _ => True) (SameTo.bind (SameTo.readExact p4 ?_ (by omega)) fun _ _ _ => SameTo.pure trivial)
      fun _ _ _ => SameTo.pure trivial
    rw [d4]
    exact window_agree hz2 (by omega) (by omega)

/-- What `file` does after reading the comment. -/
def openTail (B : Build) (eocdrOffset : Nat) (eocdr : EndOfCentralDirectoryHeader) (comment : ZipString) : Rd ZipFile := do
  let (rec, zip64) ← readCombined B eocdrOffset eocdr
  if rec.diskNumber ≠ rec.diskNumberStartOfCd ∨ rec.numEntries ≠ rec.numEntriesOnDisk then
    throwErr (.featureNotSupported "Spanned/split files")
  else do
    let _ ← seekStart rec.offsetOfStart.toNat
    let entries ← cd B rec.numEntries.toNat
    pure { entries, zip64, comment }

theorem openRest_eq (B : Build) (q : Nat) : openRest B q = (do
    let _ ← seekStart q
    let eocdr ← EndOfCentralDirectoryHeader.fromReader
    let comment ← readString eocdr.fileCommLength.toNat .utf8
    openTail B q eocdr comment) := rfl

theorem openTail_on {B : Build} {j : Nat} {e : EndOfCentralDirectoryHeader} {cm : ZipString} {s : RState} {b : Bytes}
    (h : SameDirectory s.data b j) (hlen : j + 22 ≤ s.data.length)
    (he : e = EndOfCentralDirectoryHeader.ofBytes ((s.data.drop (j + 4)).take 18)) : SameOn (openTail B (j + 4) e cm) s b := by
  unfold openTail
  refine (SameTo.bind (Q := fun _ _ => True) (P := fun r s' => s'.data = s.data ∧
    r.1.numEntries.toNat = declaredEntries s.data j ∧ r.1.offsetOfStart.toNat = declaredOffset s.data j)
    ⟨readCombined_on h, ?_⟩ ?_).1
  · rintro ⟨r, z⟩ s4 hr
    have := readCombined_ok hr (fun hl => (h.zip64 hl).1) hlen he
    exact ⟨this.1, this.2.2.2.2.2.1, this.2.2.2.2.2.2⟩
  rintro ⟨r, z⟩ s4 ⟨d4, hn, ho⟩
  refine SameTo.ite (fun _ => SameTo.throwErr) fun _ => ?_
  refine SameTo.bind SameTo.seekTo ?_
  rintro _ s5 ⟨d5, p5⟩
  refine SameTo.bind (P := fun _ _ => True) ?_ fun _ _ _ => SameTo.pure trivial
  refine SameTo.ite (fun _ => SameTo.fail) fun _ => ⟨cdLoop_on _ p5 ?_, fun _ _ _ => trivial⟩
  rw [d5, d4]
  simp only at hn ho
  rw [hn, ho]
  exact h.directory

theorem openRest_on {B : Build} {j : Nat} {s : RState} {b : Bytes} (h : SameIndex s.data b j) :
    SameOn (openRest B (j + 4)) s b := by
  rw [openRest_eq]
  refine (SameTo.bind (Q := fun _ _ => True) SameTo.seekTo ?_).1
  rintro _ s1 ⟨d1, p1⟩
  refine SameTo.bind (P := fun e s' => s'.data = s.data ∧ AtIn s' b (j + 22) ∧ j + 22 ≤ s.data.length ∧
    e = EndOfCentralDirectoryHeader.ofBytes ((s.data.drop (j + 4)).take 18) ∧
    e.fileCommLength.toNat = fieldAt s.data (j + 20) 2) ?_ ?_
  · refine SameTo.bind (SameTo.readExact p1 ?_ (by omega)) ?_
    · rw [d1]; exact window_agree h.record (by omega) (by omega)
    rintro x s2 ⟨x1, x2, d2, p2⟩
    rw [d1] at x1 d2
    refine SameTo.pure ⟨d2, by rw [show j + 22 = j + 4 + 18 by omega]; exact p2, ?_, by rw [x1]; rfl, ?_⟩
    · have := congrArg List.length x1
      rw [window, List.length_take, List.length_drop, x2] at this
      omega
    · rw [show j + 20 = j + 4 + 16 by omega]
      exact read16 x1 x2 16 (by omega)
  rintro e s2 ⟨d2, p2, hlen, he, hcl⟩
  refine SameTo.bind (P := fun _ s' => s'.data = s.data) ?_ ?_
  · refine SameTo.bind (SameTo.readBytes p2 ?_) fun _ s' hs => SameTo.pure (by rw [hs.1, d2])
    rw [d2, hcl]
    exact window_agree h.record (by omega) (by omega)
  intro cm s3 d3
  exact ⟨openTail_on (by rw [d3]; exact SameIndex.directoryOnly h) (by rw [d3]; exact hlen) (by rw [d3]; exact he), fun _ _ _ => trivial⟩

theorem openRest_posIndep (B : Build) (q : Nat) : PosIndep (openRest B q) := by
  unfold openRest
  refine PosIndep.bind (seekTo_posIndep _) fun _ =>
    LogIndep.bind (LogIndep.bind (readExact_logIndep _) fun _ => LogIndep.pure) fun _ =>
    LogIndep.bind (LogIndep.bind (readBytes_logIndep _) fun _ => LogIndep.pure) fun _ =>
    LogIndep.bind (readCombined_logIndep B _ _) fun x => ?_
  obtain ⟨r, z⟩ := x
  exact LogIndep.ite LogIndep.throwErr (LogIndep.bind (seekTo_logIndep _) fun _ =>
    LogIndep.bind (LogIndep.ite LogIndep.fail (cdLoop_logIndep B _)) fun _ => LogIndep.pure)

/-- On a source that answers at once and in full. -/
theorem openFile_same (B : Build) {a b : Bytes} {j : Nat} (h : SameIndex a b j) (p q : Nat) :
    (openFile B ⟨a, p, none, []⟩).1 = (openFile B ⟨b, q, none, []⟩).1 := by
  obtain ⟨p1, l1, e1⟩ := locateEocdr_ideal h.end_a.1 h.end_a.2 (by have := h.near_a; omega) p []
  obtain ⟨p2, l2, e2⟩ := locateEocdr_ideal h.end_b.1 h.end_b.2 (by have := h.near_b; omega) q []
  rw [openFile_eq, bind_of_ok e1, bind_of_ok e2]
  have := openRest_on (B := B) (s := ⟨a, p1, none, l1⟩) h
  unfold SameOn at this
  rw [show (openRest B (j + 4) ⟨a, p1, none, l1⟩).1 = (openRest B (j + 4) (RState.on ⟨a, p1, none, l1⟩ b)).1 by rw [this]]
  exact (openRest_posIndep B (j + 4) b p1 p2 none l1 l2).1

theorem openFile_ideal {B : Build} {s : RState} (h : ¬ Interrupted (openFile B s).1) :
    (openFile B s).1 = (openFile B ⟨s.data, 0, none, []⟩).1 := by
  obtain ⟨d, p, sc, log⟩ := s
  cases sc with
  | none => exact (openFile_posIndep B d p 0 none log []).1
  | some rs =>
    rcases openFile_chunkIndep B d p log [] rs with hi | hi
    · exact absurd hi h
    · exact hi.1.trans (openFile_posIndep B d p 0 none [] []).1

theorem window_append_right {x r : Bytes} {p n : Nat} (h : x.length ≤ p) :
    window (x ++ r) p n = window r (p - x.length) n := by
  unfold window
  rw [List.drop_append, List.drop_eq_nil_of_le h, List.nil_append]

theorem window_append_left {x r : Bytes} {p n : Nat} (h : p + n ≤ x.length) : window (x ++ r) p n = window x p n := by
  unfold window
  rw [List.drop_append_of_le_length (by omega), List.take_append_of_le_length (by rw [List.length_drop]; omega)]

theorem occursAt_append_right {x r pat : Bytes} {p : Nat} (h : x.length ≤ p) :
    OccursAt (x ++ r) pat p ↔ OccursAt r pat (p - x.length) := by
  have := window_append_right (n := pat.length) (r := r) h
  unfold window at this
  unfold OccursAt
  rw [this]

/-- What lies before the end records and the directory can be replaced. -/
theorem SameIndex.of_prefix {x y r : Bytes} {j : Nat} (hxy : x.length = y.length) (he : LastEnd (x ++ r) j)
    (hn : (x ++ r).length ≤ j + (18 + 4 + 65535)) (hj : x.length ≤ j - 20) (hd : x.length ≤ declaredOffset (x ++ r) j)
    (hz : HasLocator (x ++ r) j → x.length ≤ zip64End (x ++ r) j ∧ zip64End (x ++ r) j + 4 < 2 ^ 64) :
    SameIndex (x ++ r) (y ++ r) j := by
  have w : ∀ p n, x.length ≤ p → window (x ++ r) p n = window (y ++ r) p n := fun p n hp => by
    rw [window_append_right hp, window_append_right (by omega), hxy]
  refine ⟨he, ⟨?_, fun j' hj' => ?_⟩, hn, by rw [List.length_append] at hn ⊢; omega, w _ _ hj, w _ _ (by omega),
    fun hl => ⟨(hz hl).2, w _ _ (hz hl).1⟩, w _ _ hd⟩
  · rw [occursAt_append_right (by omega), ← hxy, ← occursAt_append_right (by omega)]
    exact he.1
  · by_cases hc : x.length ≤ j'
    · rw [occursAt_append_right (by omega), ← hxy, ← occursAt_append_right hc] at hj'
      exact he.2 j' hj'
    · omega

/-- What lies behind a complete archive can be left off. -/
theorem SameIndex.of_suffix {a junk : Bytes} {j : Nat} (he : LastEnd a j) (hx : LastEnd (a ++ junk) j)
    (hn : (a ++ junk).length ≤ j + (18 + 4 + 65535)) (hc : j + 22 + fieldAt a (j + 20) 2 ≤ a.length)
    (hd : declaredOffset a j + recordsLength a (declaredOffset a j) (declaredEntries a j) ≤ a.length)
    (hz : HasLocator a j → zip64End a j + 56 ≤ a.length ∧ zip64End a j + 4 < 2 ^ 64) : SameIndex a (a ++ junk) j := by
  have w : ∀ p n, p + n ≤ a.length → window a p n = window (a ++ junk) p n := fun p n hp => (window_append_left hp).symm
  refine ⟨he, hx, by rw [List.length_append] at hn; omega, hn, ?_, w _ _ (by omega), fun hl => ⟨(hz hl).2, w _ _ (hz hl).1⟩,
    w _ _ hd⟩
  by_cases h20 : 20 ≤ j
  · exact w _ _ (by omega)
  · exact w _ _ (by omega)

end AsyncZip
