import Verif.Proofs.Locator
import Verif.Proofs.OpenSpec
import Verif.Proofs.Reading
import Verif.Proofs.OpenRuns
/-!
# Counting the requests made of a source
-/

namespace AsyncZip
open Spec Rd

/-- `m` makes at most `k` requests. -/
def Asks {α : Type} (m : Rd α) (s : RState) (k : Nat) : Prop :=
  (m s).2.log.length ≤ s.log.length + k ∧ (m s).2.data = s.data

theorem Asks.mono {α : Type} {m : Rd α} {s : RState} {k k' : Nat} (h : Asks m s k) (hk : k ≤ k') : Asks m s k' :=
  ⟨by have := h.1; omega, h.2⟩

theorem Asks.bind {α β : Type} {m : Rd α} {f : α → Rd β} {s : RState} {k k' : Nat} (h : Asks m s k)
    (hf : ∀ a s1, m s = (.ok a, s1) → s1.data = s.data → Asks (f a) s1 k') : Asks (m >>= f) s (k + k') := by
  obtain ⟨h1, h2⟩ := h
  cases hr : m s with
  | mk r s1 =>
    rw [hr] at h1 h2
    cases r with
    | error e => unfold Asks; rw [bind_of_error hr]; exact ⟨by simp only at h1 ⊢; omega, h2⟩
    | ok a =>
      obtain ⟨g1, g2⟩ := hf a s1 hr h2
      unfold Asks
      rw [bind_of_ok hr]
      exact ⟨by simp only at h1; omega, g2.trans h2⟩

theorem Asks.pure {α : Type} {a : α} {s : RState} {k : Nat} : Asks (pure a : Rd α) s k := ⟨Nat.le_add_right _ _, rfl⟩
theorem Asks.lift {α : Type} {r : Res α} {s : RState} {k : Nat} : Asks (lift r) s k := ⟨Nat.le_add_right _ _, rfl⟩
theorem Asks.fail {α : Type} {e : Fail} {s : RState} {k : Nat} : Asks (fail e : Rd α) s k := ⟨Nat.le_add_right _ _, rfl⟩
theorem Asks.throwErr {α : Type} {e : ZipError} {s : RState} {k : Nat} : Asks (throwErr e : Rd α) s k := Asks.fail

theorem Asks.ite {α : Type} {c : Prop} [Decidable c] {m n : Rd α} {s : RState} {k : Nat} (h : Asks m s k)
    (g : Asks n s k) : Asks (if c then m else n) s k := by split <;> assumption

theorem Asks.seekTo {t : Nat} {s : RState} : Asks (seekTo t) s 1 := by
  refine ⟨by rw [seekTo_log]; simp, ?_⟩
  unfold Rd.seekTo
  split
  · rfl
  · exact seekSched_data ..

/-- `m` reads forward: at least `lo` bytes if it succeeds, at most `hi`, with at most one request per byte and `k` more. -/
structure Spends {α : Type} (m : Rd α) (s : RState) (k lo hi : Nat) : Prop where
  data : (m s).2.data = s.data
  forward : s.pos ≤ (m s).2.pos
  log : (m s).2.log.length ≤ s.log.length + ((m s).2.pos - s.pos) + k
  most : (m s).2.pos ≤ s.pos + hi
  inside : (m s).2.pos ≤ max s.pos s.data.length
  least : ∀ a, (m s).1 = .ok a → s.pos + lo ≤ (m s).2.pos

theorem Spends.asks {α : Type} {m : Rd α} {s : RState} {k lo hi : Nat} (h : Spends m s k lo hi) : Asks m s (hi + k) :=
  ⟨by have := h.log; have := h.most; have := h.forward; omega, h.data⟩

theorem Spends.mono {α : Type} {m : Rd α} {s : RState} {k k' lo lo' hi hi' : Nat} (h : Spends m s k lo hi) (hk : k ≤ k')
    (hl : lo' ≤ lo) (hh : hi ≤ hi') : Spends m s k' lo' hi' :=
  ⟨h.data, h.forward, by have := h.log; omega, by have := h.most; omega, h.inside, fun a ha => by have := h.least a ha; omega⟩

theorem Spends.pure {α : Type} {a : α} {s : RState} : Spends (pure a : Rd α) s 0 0 0 :=
  ⟨rfl, Nat.le_refl _, by show s.log.length ≤ _; omega, Nat.le_refl _, Nat.le_max_left _ _, fun _ _ => Nat.le_refl _⟩
theorem Spends.lift {α : Type} {r : Res α} {s : RState} : Spends (lift r) s 0 0 0 :=
  ⟨rfl, Nat.le_refl _, by show s.log.length ≤ _; omega, Nat.le_refl _, Nat.le_max_left _ _, fun _ _ => Nat.le_refl _⟩
theorem Spends.fail {α : Type} {e : Fail} {s : RState} {k lo hi : Nat} : Spends (fail e : Rd α) s k lo hi :=
  ⟨rfl, Nat.le_refl _, by show s.log.length ≤ _; omega, Nat.le_add_right _ _, Nat.le_max_left _ _, fun _ h => by cases h⟩

theorem Spends.bind {α β : Type} {m : Rd α} {f : α → Rd β} {s : RState} {k k' lo lo' hi hi' : Nat} (h : Spends m s k lo hi)
    (hf : ∀ a s1, Spends (f a) s1 k' lo' hi') : Spends (m >>= f) s (k + k') (lo + lo') (hi + hi') := by
  cases hr : m s with
  | mk r s1 =>
    obtain ⟨h1, h2, h3, h4, h5, h6⟩ := h
    rw [hr] at h1 h2 h3 h4 h5 h6
    simp only at h1 h2 h3 h4 h5 h6
    cases r with
    | error e =>
      have e1 : (m >>= f) s = (.error e, s1) := bind_of_error hr
      constructor
      all_goals rw [e1]
      · exact h1
      · exact h2
      · simp only; omega
      · simp only; omega
      · exact h5
      · intro a ha; cases ha
    | ok a =>
      obtain ⟨g1, g2, g3, g4, g5, g6⟩ := hf a s1
      have h6 := h6 a rfl
      have e1 : (m >>= f) s = f a s1 := bind_of_ok hr
      rw [h1] at g5
      constructor
      all_goals rw [e1]
      · exact g1.trans h1
      · omega
      · omega
      · omega
      · omega
      · intro c hc; have := g6 c hc; omega

theorem readOnce_spends (n : Nat) (s : RState) : Spends (readOnce n) s 1 0 n := by
  have hl := readOnce_log n s
  cases hr : readOnce n s with
  | mk r s1 =>
    rw [hr] at hl
    simp only at hl
    cases r with
    | ok b =>
      obtain ⟨k, k1, _, k3, k4, k5⟩ := readOnce_ok hr
      have hb : b.length ≤ n ∧ b.length ≤ s.data.length - s.pos := by
        rw [k3]; simp only [List.length_take, List.length_drop]; omega
      constructor
      all_goals rw [hr]
      · exact k4
      · simp only; omega
      · simp only; rw [hl, List.length_append, List.length_singleton]; omega
      · simp only; omega
      · simp only; omega
      · intro a _; simp only; omega
    | error e =>
      obtain ⟨k1, k2, _⟩ := readOnce_err hr
      constructor
      all_goals rw [hr]
      · exact k1
      · simp only; omega
      · simp only; rw [hl, List.length_append, List.length_singleton]; omega
      · simp only; omega
      · simp only; omega
      · intro a _; simp only; omega

/-- One request that yields something is paid for by what it yields. -/
theorem step_spends {α : Type} {f : Bytes → Rd α} {need : Nat} {s : RState} {lo hi : Nat}
    (h0 : ∀ s1 : RState, Spends (f []) s1 0 lo hi) (hi0 : hi ≤ need)
    (hf : ∀ b : Bytes, b ≠ [] → b.length ≤ need → ∀ s1, Spends (f b) s1 1 (lo - b.length) (need - b.length)) :
    Spends (readOnce need >>= f) s 1 lo need := by
  have hl := readOnce_spends need s
  cases hr : readOnce need s with
  | mk r s1 =>
    obtain ⟨h1, h2, h3, h4, h5, h6⟩ := hl
    rw [hr] at h1 h2 h3 h4 h5 h6
    simp only at h1 h2 h3 h4 h5 h6
    cases r with
    | error e =>
      have e1 : (readOnce need >>= f) s = (.error e, s1) := bind_of_error hr
      constructor
      all_goals rw [e1]
      · exact h1
      · exact h2
      · simp only; omega
      · simp only; omega
      · exact h5
      · intro a ha; cases ha
    | ok b =>
      obtain ⟨k, k1, _, k3, k4, k5⟩ := readOnce_ok hr
      have hbl : b.length ≤ need := by rw [k3]; simp only [List.length_take]; omega
      have e1 : (readOnce need >>= f) s = f b s1 := bind_of_ok hr
      have hlog := readOnce_log need s
      rw [hr] at hlog
      simp only at hlog
      have hlog := congrArg List.length hlog
      rw [List.length_append, List.length_singleton] at hlog
      by_cases hb : b = []
      · subst hb
        rw [List.length_nil] at k5
        obtain ⟨g1, g2, g3, g4, g5, g6⟩ := h0 s1
        rw [h1] at g5
        constructor
        all_goals rw [e1]
        · exact g1.trans h1
        · omega
        · omega
        · omega
        · omega
        · intro c hc; have := g6 c hc; omega
      · have hpos := List.length_pos_iff.2 hb
        obtain ⟨g1, g2, g3, g4, g5, g6⟩ := hf b hb hbl s1
        rw [h1] at g5
        constructor
        all_goals rw [e1]
        · exact g1.trans h1
        · omega
        · omega
        · omega
        · omega
        · intro c hc; have := g6 c hc; omega

theorem readUpToLoop_spends (need : Nat) : ∀ (acc : Bytes) (s : RState), Spends (readUpToLoop need acc) s 1 0 need := by
  induction need using Nat.strongRecOn with
  | ind need ih =>
    intro acc s
    unfold readUpToLoop
    split
    · exact Spends.pure.mono (by omega) (by omega) (by omega)
    · refine step_spends (hi := 0) (fun s1 => ?_) (Nat.zero_le _) fun b hb hbl s1 => ?_
      · exact Spends.pure
      · have hpos := List.length_pos_iff.2 hb
        rw [if_neg (by omega)]
        exact (ih _ (by omega) _ s1).mono (Nat.le_refl _) (by omega) (Nat.le_refl _)

theorem readExactLoop_spends (need : Nat) : ∀ (acc : Bytes) (s : RState), Spends (readExactLoop need acc) s 1 need need := by
  induction need using Nat.strongRecOn with
  | ind need ih =>
    intro acc s
    unfold readExactLoop
    split
    · exact Spends.pure.mono (by omega) (by omega) (by omega)
    · refine step_spends (hi := 0) (fun s1 => ?_) (Nat.zero_le _) fun b hb hbl s1 => ?_
      · exact Spends.fail
      · have hpos := List.length_pos_iff.2 hb
        rw [if_neg (by omega)]
        exact ih _ (by omega) _ s1

theorem readExact_spends (n : Nat) (s : RState) : Spends (readExact n) s 1 n n := readExactLoop_spends n [] s
theorem readBytes_spends (n : Nat) (s : RState) : Spends (readBytes n) s 1 0 n := readUpToLoop_spends n [] s

theorem Spends.ite {α : Type} {c : Prop} [Decidable c] {m n : Rd α} {s : RState} {k lo hi : Nat} (h : Spends m s k lo hi)
    (g : Spends n s k lo hi) : Spends (if c then m else n) s k lo hi := by split <;> assumption

theorem u16_le (v : UInt16) : v.toNat ≤ 65535 := by have := v.toNat_lt; omega

theorem assertSignature_spends (e : UInt32) (s : RState) : Spends (assertSignature e) s 1 4 4 :=
  (Spends.bind (readExact_spends 4 s) fun _ _ => Spends.ite Spends.pure Spends.fail)

theorem cdRecord_spends (b : Build) (s : RState) : Spends (cdRecord b) s 5 46 (46 + 3 * 65535) := by
  have h := Spends.bind (assertSignature_spends CDH_SIGNATURE s) fun _ s =>
    Spends.bind (f := fun header => (do
      let filenameBasic ← readBytes header.fileNameLength.toNat
      let compression ← lift (Compression.tryFrom header.compression)
      let extraField ← readBytes header.extraFieldLength.toNat
      let extraFields ← lift (parseExtraFields b extraField header.uncompressedSize header.compressedSize)
      let commentBasic ← readBytes header.fileCommentLength.toNat
      pure (cdEntryOf header filenameBasic compression extraFields commentBasic)))
    (Spends.bind (f := fun x => pure (CentralDirectoryRecord.ofBytes x)) (readExact_spends 42 s) fun _ _ => Spends.pure) fun header s =>
    Spends.bind ((readBytes_spends header.fileNameLength.toNat s).mono (Nat.le_refl _) (Nat.le_refl _) (u16_le _)) fun _ _ =>
    Spends.bind Spends.lift fun _ s =>
    Spends.bind ((readBytes_spends header.extraFieldLength.toNat s).mono (Nat.le_refl _) (Nat.le_refl _) (u16_le _)) fun _ _ =>
    Spends.bind Spends.lift fun _ s =>
    Spends.bind ((readBytes_spends header.fileCommentLength.toNat s).mono (Nat.le_refl _) (Nat.le_refl _) (u16_le _)) fun _ _ =>
    Spends.pure
  exact h.mono (by omega) (by omega) (by omega)

/-- The directory, however many records were announced: two requests per byte read, and five. -/
theorem cdLoop_asks (b : Build) : ∀ (n : Nat) (s : RState), (cdLoop b n s).2.data = s.data ∧ s.pos ≤ (cdLoop b n s).2.pos ∧
    (cdLoop b n s).2.pos ≤ max s.pos s.data.length ∧
    (cdLoop b n s).2.log.length ≤ s.log.length + 2 * ((cdLoop b n s).2.pos - s.pos) + 5
  | 0, s => ⟨rfl, Nat.le_refl _, Nat.le_max_left _ _, by show s.log.length ≤ _; omega⟩
  | n + 1, s => by
    obtain ⟨h1, h2, h3, h4, h5, h6⟩ := cdRecord_spends b s
    cases hr : cdRecord b s with
    | mk r s1 =>
      rw [hr] at h1 h2 h3 h4 h5 h6
      simp only at h1 h2 h3 h4 h5 h6
      cases r with
      | error e =>
        rw [show cdLoop b (n + 1) s = (.error e, s1) from bind_of_error hr]
        exact ⟨h1, h2, h5, by simp only; omega⟩
      | ok e =>
        have h6 := h6 e rfl
        obtain ⟨g1, g2, g3, g4⟩ := cdLoop_asks b n s1
        cases hr' : cdLoop b n s1 with
        | mk r' s2 =>
          rw [hr'] at g1 g2 g3 g4
          simp only at g1 g2 g3 g4
          have e1 : (cdLoop b (n + 1) s).2 = s2 := by
            have : cdLoop b (n + 1) s = (cdLoop b n >>= fun es => pure (e :: es)) s1 := bind_of_ok hr
            rw [this, bind_def, hr']
            cases r' <;> rfl
          rw [e1]
          rw [h1] at g1 g3
          exact ⟨g1, by omega, by omega, by omega⟩

theorem cd_asks (b : Build) (n : Nat) (s : RState) : Asks (cd b n) s (2 * s.data.length + 5) := by
  unfold cd
  refine Asks.ite Asks.fail ?_
  obtain ⟨h1, h2, h3, h4⟩ := cdLoop_asks b n s
  exact ⟨by omega, h1⟩

theorem eocdrLoop_asks (length : Nat) (position : Nat) : ∀ (s : RState) (k : Nat),
    position ≤ (length - 65557) + 2044 * k → Asks (eocdrLoop length position) s (2049 + 2050 * k) := by
  induction position using Nat.strongRecOn with
  | ind position ih =>
    intro s k hk
    unfold eocdrLoop
    refine Asks.bind (readUpToLoop_spends BUFFER_SIZE [] s).asks fun buffer s1 _ _ => ?_
    split
    · exact Asks.pure
    · split
      · exact Asks.throwErr
      · rename_i hgo
        rw [show EOCDR_LOWER_BOUND = 65557 by decide] at hgo
        rw [show BUFFER_SIZE - SIGNATURE_LENGTH = 2044 by decide]
        have hk1 : 1 ≤ k := by omega
        have e1 : 2050 * k = 1 + (2049 + 2050 * (k - 1)) := by omega
        rw [e1]
        exact Asks.bind Asks.seekTo fun x s2 _ _ => ih (position - 2044) (by omega) s2 (k - 1) (by omega)

theorem locateEocdr_asks (s : RState) : Asks locateEocdr s 67651 := by
  unfold locateEocdr
  refine (Asks.bind (k := 1) (k' := 1 + (2049 + 2050 * 32)) Asks.seekTo fun len s1 h1 _ => ?_).mono (by omega)
  refine Asks.bind Asks.seekTo fun x s2 _ _ => ?_
  obtain ⟨rfl, _, _⟩ := seekTo_ok h1
  refine eocdrLoop_asks _ _ s2 32 ?_
  rw [show BUFFER_SIZE = 2048 from rfl]
  omega

theorem readCombined_asks (b : Build) (off : Nat) (e : EndOfCentralDirectoryHeader) (s : RState) :
    Asks (readCombined b off e) s 77 := by
  unfold readCombined
  refine Asks.ite Asks.pure ?_
  refine Asks.bind (k := 1) (k' := 76) Asks.seekTo fun _ s1 _ _ => ?_
  refine Asks.bind (k := 22) (k' := 54) ?_ fun l s2 _ _ => ?_
  · unfold Zip64EndOfCentralDirectoryLocator.tryFromReader
    refine Asks.bind (k := 5) (k' := 17) (readExact_spends 4 s1).asks fun _ s2 _ _ => ?_
    exact Asks.ite Asks.pure (Asks.bind (k := 17) (k' := 0) (readExact_spends 16 s2).asks fun _ _ _ _ => Asks.pure)
  · cases l with
    | none => exact Asks.pure
    | some l =>
      refine Asks.bind (k := 0) (k' := 54) Asks.lift fun _ s3 _ _ => ?_
      refine Asks.bind (k := 1) (k' := 53) Asks.seekTo fun _ s4 _ _ => ?_
      refine Asks.bind (k := 53) (k' := 0) ?_ fun _ _ _ _ => Asks.pure
      exact Asks.bind (k := 53) (k' := 0) (readExact_spends 52 s4).asks fun _ _ _ _ => Asks.pure

theorem openFile_asks (b : Build) (s : RState) : Asks (openFile b) s (2 * s.data.length + 133290) := by
  unfold openFile
  refine (Asks.bind (k' := 1 + (19 + (65536 + (77 + (1 + (2 * s.data.length + 5))))))
    (locateEocdr_asks s) fun off s1 _ d1 => ?_).mono (by omega)
  refine Asks.bind Asks.seekTo fun _ s2 _ d2 => ?_
  refine Asks.bind (Asks.bind (k := 19) (k' := 0) (readExact_spends 18 s2).asks fun _ _ _ _ => Asks.pure) fun eo s3 _ d3 => ?_
  refine Asks.bind (Asks.bind (k := 65536) (k' := 0)
    ((readBytes_spends eo.fileCommLength.toNat s3).mono (Nat.le_refl _) (Nat.le_refl _) (u16_le _)).asks
    fun _ _ _ _ => Asks.pure) fun c s4 _ d4 => ?_
  refine Asks.bind (readCombined_asks b off eo s4) fun x s5 _ d5 => ?_
  refine Asks.ite Asks.throwErr ?_
  refine Asks.bind Asks.seekTo fun _ s6 _ d6 => ?_
  have e : s6.data = s.data := by rw [d6, d5, d4, d3, d2, d1]
  rw [← e]
  exact Asks.bind (k' := 0) (cd_asks b _ s6) fun _ _ _ _ => Asks.pure

theorem seekToDataOffset_asks (e : StoredZipEntry) (s : RState) : Asks (seekToDataOffset e) s 34 := by
  unfold seekToDataOffset
  refine Asks.bind (k := 1) (k' := 33) Asks.seekTo fun _ s1 _ _ => ?_
  refine Asks.bind (k := 5) (k' := 28) (readExact_spends 4 s1).asks fun sig s2 _ _ => ?_
  refine Asks.ite ?_ Asks.throwErr
  refine Asks.bind (k := 27) (k' := 1) (Asks.bind (k := 27) (k' := 0) (readExact_spends 26 s2).asks fun _ _ _ _ => Asks.pure)
    fun h s3 _ _ => ?_
  exact Asks.bind (k := 1) (k' := 0) Asks.seekTo fun _ _ _ _ => Asks.pure

theorem readerWithEntry_asks (f : ZipFile) (i : Nat) (s : RState) : Asks (readerWithEntry f i) s 34 := by
  unfold readerWithEntry
  cases f.entries[i]? with
  | none => exact Asks.throwErr
  | some e => exact Asks.bind (k := 34) (k' := 0) (seekToDataOffset_asks e s) fun _ _ _ _ => Asks.pure

theorem lfh_spends (b : Build) (s : RState) : Spends (lfh b) s 4 4 (30 + 2 * 65535) := by
  unfold lfh
  refine (Spends.bind (k' := 3) (lo' := 0) (hi' := 26 + 2 * 65535) (readExact_spends 4 s) fun sig s1 => ?_).mono
    (by omega) (by omega) (by omega)
  refine Spends.ite ?_ (Spends.ite (Spends.pure.mono (by omega) (by omega) (by omega)) Spends.fail)
  refine (Spends.bind (k := 1) (k' := 2) (lo := 26) (lo' := 0) (hi := 26) (hi' := 2 * 65535)
    (Spends.bind (readExact_spends 26 s1) fun _ _ => Spends.pure) fun header s2 => ?_).mono (by omega) (by omega) (by omega)
  refine (Spends.bind (k' := 1) (lo' := 0) (hi' := 65535)
    ((readBytes_spends header.fileNameLength.toNat s2).mono (Nat.le_refl _) (Nat.le_refl _) (u16_le _)) fun _ s3 => ?_).mono
    (by omega) (by omega) (by omega)
  refine (Spends.bind (k' := 1) (lo' := 0) (hi' := 65535) Spends.lift fun _ s4 => ?_).mono (by omega) (by omega) (by omega)
  refine (Spends.bind (k' := 0) (lo' := 0) (hi' := 0)
    ((readBytes_spends header.extraFieldLength.toNat s4).mono (Nat.le_refl _) (Nat.le_refl _) (u16_le _)) fun _ s5 => ?_).mono
    (by omega) (by omega) (by omega)
  exact Spends.bind (k := 0) (lo := 0) (hi := 0) Spends.lift fun _ s6 =>
    Spends.ite Spends.fail (Spends.ite Spends.fail Spends.pure)

/-- `m` goes forward and makes at most one request per byte of the file that it passes, and `k` more. -/
structure Pays {α : Type} (m : Rd α) (s : RState) (k : Nat) : Prop where
  data : (m s).2.data = s.data
  forward : s.pos ≤ (m s).2.pos
  log : (m s).2.log.length ≤ s.log.length + (min (m s).2.pos s.data.length - min s.pos s.data.length) + k

theorem Spends.pays {α : Type} {m : Rd α} {s : RState} {k lo hi : Nat} (h : Spends m s k lo hi) : Pays m s k :=
  ⟨h.data, h.forward, by have := h.log; have := h.inside; have := h.forward; omega⟩

theorem Pays.mono {α : Type} {m : Rd α} {s : RState} {k k' : Nat} (h : Pays m s k) (hk : k ≤ k') : Pays m s k' :=
  ⟨h.data, h.forward, by have := h.log; omega⟩

theorem Pays.bind {α β : Type} {m : Rd α} {f : α → Rd β} {s : RState} {k k' : Nat} (h : Pays m s k)
    (hf : ∀ a s1, m s = (.ok a, s1) → Pays (f a) s1 k') : Pays (m >>= f) s (k + k') := by
  cases hr : m s with
  | mk r s1 =>
    obtain ⟨h1, h2, h3⟩ := h
    rw [hr] at h1 h2 h3
    simp only at h1 h2 h3
    cases r with
    | error e =>
      have e1 : (m >>= f) s = (.error e, s1) := bind_of_error hr
      constructor
      all_goals rw [e1]
      · exact h1
      · exact h2
      · simp only; omega
    | ok a =>
      obtain ⟨g1, g2, g3⟩ := hf a s1 hr
      have e1 : (m >>= f) s = f a s1 := bind_of_ok hr
      rw [h1] at g3
      constructor
      all_goals rw [e1]
      · exact g1.trans h1
      · omega
      · omega

theorem Pays.pure {α : Type} {a : α} {s : RState} {k : Nat} : Pays (pure a : Rd α) s k := Spends.pure.pays.mono (Nat.zero_le _)

theorem awaitSched_log {n : Nat} {s : RState} (rs : List RdResp) :
    (awaitSched n s rs).2.log = s.log ∧ (awaitSched n s rs).2.data = s.data ∧ (awaitSched n s rs).2.pos = s.pos := by
  induction rs with
  | nil => exact ⟨rfl, rfl, rfl⟩
  | cons r rs ih =>
    cases r with
    | pending => exact ih
    | _ => exact ⟨rfl, rfl, rfl⟩

theorem awaitChunk_log (n : Nat) (s : RState) :
    (awaitChunk n s).2.log = s.log ∧ (awaitChunk n s).2.data = s.data ∧ (awaitChunk n s).2.pos = s.pos := by
  unfold awaitChunk
  split
  · exact ⟨rfl, rfl, rfl⟩
  · exact awaitSched_log _

/-- A read of an entry: one request at most, paid for by the bytes it yields, if any. -/
theorem read_pays (C : Codec) (er : EntryReader) (n : Nat) (s : RState) : Pays (er.read C n) s 1 ∧
    ∀ b er' s', er.read C n s = (.ok (b, er'), s') → b ≠ [] → Pays (er.read C n) s 0 := by
  by_cases hc : er.compression = .stored
  · by_cases hl : er.limit = 0
    · have e1 : er.read C n s = (.ok ([], er), s) := by
        unfold EntryReader.read
        rw [if_pos hc, if_pos hl]
      refine ⟨?_, fun b er' s' h hb => ?_⟩
      · constructor
        all_goals rw [e1]
        · simp only; omega
        · exact Nat.le_succ_of_le (Nat.le_add_right _ _)
      · rw [e1] at h
        simp only [Prod.mk.injEq, Except.ok.injEq] at h
        exact absurd h.1.1.symm hb
    · have e1 : er.read C n s = (readOnce (min n er.limit) >>= fun b =>
          pure (b, { er with limit := er.limit - b.length, hasher := er.hasher.update b })) s := by
        unfold EntryReader.read
        rw [if_pos hc, if_neg hl, bind_def]
        cases readOnce (min n er.limit) s with
        | mk r s' => cases r <;> rfl
      have hp : Pays (er.read C n) s 1 := by
        have h := Pays.bind (k' := 0) (f := fun b =>
          (pure (b, { er with limit := er.limit - b.length, hasher := er.hasher.update b }) : Rd (Bytes × EntryReader)))
          (readOnce_spends (min n er.limit) s).pays fun _ _ _ => Pays.pure
        exact ⟨by rw [e1]; exact h.data, by rw [e1]; exact h.forward, by rw [e1]; exact h.log⟩
      refine ⟨hp, fun b er' s' h hb => ?_⟩
      have h' := h
      rw [e1] at h'
      obtain ⟨b1, s1, h1, h2⟩ := bind_ok_iff.1 h'
      simp only [pure_def, Prod.mk.injEq, Except.ok.injEq] at h2
      obtain ⟨⟨rfl, rfl⟩, rfl⟩ := h2
      have hlog := readOnce_log (min n er.limit) s
      rw [h1] at hlog
      simp only at hlog
      obtain ⟨k, _, _, k3, k4, k5⟩ := readOnce_ok h1
      have hpos := List.length_pos_iff.2 hb
      have hin : b1.length ≤ s.data.length - s.pos := by
        rw [k3]; simp only [List.length_take, List.length_drop]; omega
      constructor
      all_goals rw [h]
      · exact k4
      · simp only; omega
      · simp only
        rw [hlog, List.length_append, List.length_singleton]
        omega
  · have key : Pays (er.read C n) s 0 := by
      obtain ⟨h1, h2, h3⟩ := awaitChunk_log n s
      unfold EntryReader.read
      by_cases hn : n = 0
      · constructor
        all_goals simp only [if_neg hc, if_pos hn]
        · omega
        · omega
      · cases ha : awaitChunk n s with
        | mk r s1 =>
          rw [ha] at h1 h2 h3
          simp only at h1 h2 h3
          cases r with
          | error e =>
            constructor
            all_goals simp only [if_neg hc, if_neg hn, ha]
            · exact h2
            · omega
            · rw [h1]; omega
          | ok k =>
            have hd : (er.deliver (er.run C s) k s1).2.data = s.data ∧ s.pos ≤ (er.deliver (er.run C s) k s1).2.pos ∧
                (er.deliver (er.run C s) k s1).2.log = s.log := by
              unfold EntryReader.deliver
              split
              · split
                · exact ⟨h2, by show s.pos ≤ s1.pos + _; omega, h1⟩
                · exact ⟨h2, Nat.le_of_eq h3.symm, h1⟩
              · exact ⟨h2, Nat.le_of_eq h3.symm, h1⟩
            constructor
            all_goals simp only [if_neg hc, if_neg hn, ha]
            · exact hd.1
            · exact hd.2.1
            · rw [hd.2.2]; omega
    exact ⟨key.mono (by omega), fun _ _ _ _ _ => key⟩

theorem readLoop_pays (C : Codec) (chunk : Nat) : ∀ (m : Nat) (er : EntryReader) (acc : Bytes) (s : RState),
    er.remaining C s = m → Pays (er.readLoop C chunk acc) s 1 := by
  intro m
  induction m using Nat.strongRecOn with
  | ind m ih =>
    intro er acc s hm
    obtain ⟨hp, hp0⟩ := read_pays C er chunk s
    cases hr : er.read C chunk s with
    | mk r s1 =>
      cases r with
      | error e =>
        have e1 := readLoop_failed (acc := acc) hr
        obtain ⟨h1, h2, h3⟩ := hp
        rw [hr] at h1 h2 h3
        constructor
        all_goals rw [e1]
        · exact h1
        · exact h2
        · exact h3
      | ok x =>
        obtain ⟨b, er'⟩ := x
        by_cases hb : b = []
        · subst hb
          have e1 := readLoop_stop (acc := acc) hr
          obtain ⟨h1, h2, h3⟩ := hp
          rw [hr] at h1 h2 h3
          constructor
          all_goals rw [e1]
          · exact h1
          · exact h2
          · exact h3
        · have e1 := readLoop_step (acc := acc) hr hb
          obtain ⟨h1, h2, h3⟩ := hp0 b er' s1 hr hb
          rw [hr] at h1 h2 h3
          simp only at h1 h2 h3
          obtain ⟨g1, g2, g3⟩ := ih _ (by rw [← hm]; exact EntryReader.read_remaining_lt hr hb) er' (acc ++ b) s1 rfl
          rw [h1] at g1 g3
          constructor
          all_goals rw [e1]
          · exact g1
          · omega
          · omega

theorem streamNext_pays (b : Build) (s : RState) : Pays (streamNext b) s 4 := by
  unfold streamNext
  refine Pays.bind (k := 4) (k' := 0) (lfh_spends b s).pays fun e s1 _ => ?_
  cases e <;> exact Pays.pure

theorem descriptor_pays (dd : Bool) (s : RState) : Pays (if dd then consumeDataDescriptor else pure ()) s 2 := by
  cases dd
  · exact Pays.pure
  · refine Pays.bind (k := 1) (k' := 1) (readExact_spends _ s).pays fun d s1 _ => ?_
    split
    · exact Pays.bind (k := 1) (k' := 0) (readExact_spends _ s1).pays fun _ _ _ => Pays.pure
    · exact Pays.pure

end AsyncZip
