import Verif.Spec.CutStream
import Verif.Proofs.Steady
/-!
# Streaming over the beginning of a file
-/

namespace AsyncZip
open Spec Rd

/-! ## The ideal source -/

/-- The ideal source does not interrupt `m` and stays ideal. -/
def Calm {α : Type} (m : Rd α) : Prop := ∀ s : RState, s.sched = none → ¬ Interrupted (m s).1 ∧ (m s).2.sched = none

theorem Calm.pure {α : Type} {a : α} : Calm (Pure.pure a : Rd α) := fun _ h => ⟨not_interrupted_ok, h⟩

theorem Calm.throwErr {α : Type} {e : ZipError} (he : ∀ c, e ≠ .upstreamReadError (.other c)) : Calm (Rd.throwErr e : Rd α) := by
  refine fun s h => ⟨fun hi => ?_, h⟩
  rcases hi with hi | ⟨c, hi⟩
  · cases hi
  · cases hi
    exact he c rfl

theorem Calm.bind {α β : Type} {m : Rd α} {f : α → Rd β} (hm : Calm m) (hf : ∀ a, Calm (f a)) : Calm (m >>= f) := by
  intro s hs
  obtain ⟨h1, h2⟩ := hm s hs
  cases h : m s with
  | mk r s1 =>
    rw [h] at h1 h2
    cases r with
    | error e =>
      rw [bind_of_error h]
      exact ⟨fun hi => h1 (interrupted_cast hi), h2⟩
    | ok a =>
      rw [bind_of_ok h]
      exact hf a s1 h2

theorem Calm.ite {α : Type} {c : Prop} [Decidable c] {m m' : Rd α} (h : Calm m) (h' : Calm m') :
    Calm (if c then m else m') := by
  split <;> assumption

theorem readOnce_calm (n : Nat) : Calm (readOnce n) := by
  intro s hs
  unfold readOnce
  rw [hs]
  exact ⟨not_interrupted_ok, rfl⟩

theorem read_calm (C : Codec) (er : EntryReader) (n : Nat) : Calm (er.read C n) := by
  intro s hs
  unfold EntryReader.read
  split
  · split
    · exact ⟨not_interrupted_ok, hs⟩
    · obtain ⟨h1, h2⟩ := readOnce_calm (min n er.limit) s hs
      cases h : readOnce (min n er.limit) s with
      | mk r s1 =>
        rw [h] at h1 h2
        cases r with
        | error e => exact ⟨fun hi => h1 (interrupted_cast hi), h2⟩
        | ok a => exact ⟨not_interrupted_ok, h2⟩
  · split
    · exact ⟨not_interrupted_ok, hs⟩
    · have : awaitChunk n s = (.ok n, s) := by unfold awaitChunk; rw [hs]
      rw [this]
      simp only
      unfold EntryReader.deliver
      split
      · split
        · exact ⟨not_interrupted_ok, hs⟩
        · refine ⟨fun hi => ?_, hs⟩
          rcases hi with hi | ⟨c, hi⟩ <;> cases hi
      · exact ⟨not_interrupted_ok, hs⟩

theorem readLoop_calm (C : Codec) (chunk : Nat) : ∀ (k : Nat) (er : EntryReader) (acc : Bytes) (s : RState),
    er.remaining C s = k → s.sched = none →
    ¬ Interrupted (er.readLoop C chunk acc s).1 ∧ (er.readLoop C chunk acc s).2.sched = none := by
  intro k
  induction k using Nat.strongRecOn with
  | _ k ih =>
  intro er acc s hk hs
  obtain ⟨h1, h2⟩ := read_calm C er chunk s hs
  rw [EntryReader.readLoop]
  split
  · rename_i b er' s' h
    rw [h] at h2
    split
    · exact ⟨not_interrupted_ok, h2⟩
    · rename_i hb
      exact ih _ (hk ▸ EntryReader.read_remaining_lt h hb) er' _ s' rfl h2
  · rename_i e s' h
    rw [h] at h1 h2
    exact ⟨fun hi => h1 (interrupted_cast hi), h2⟩

theorem readToEnd_calm (C : Codec) (chunk : Nat) (er : EntryReader) : Calm (er.readToEnd C chunk) :=
  fun s hs => readLoop_calm C chunk _ er [] s rfl hs

theorem readUpTo_calm (C : Codec) (chunk : Nat) : ∀ (fuel n : Nat) (er : EntryReader), Calm (Spec.readUpTo C chunk fuel n er)
  | 0, _, _ => Calm.pure
  | fuel + 1, _, _ => Calm.ite Calm.pure (Calm.bind (read_calm _ _ _) fun _ =>
      Calm.ite Calm.pure (Calm.bind (readUpTo_calm C chunk fuel _ _) fun _ => Calm.pure))

/-! ## The same on the whole file and on its beginning -/

/-- `m` does not succeed on the ideal source. -/
def Fails {α : Type} (m : Rd α) (data : Bytes) (pos : Nat) : Prop :=
  ∀ log, ∃ e s', m ⟨data, pos, none, log⟩ = (.error e, s')

theorem Runs.ok_fails {α : Type} {m : Rd α} {data : Bytes} {pos pos' : Nat} {a : α} (h : Runs m data pos (.ok a) pos')
    (h' : Fails m data pos) : False := by
  obtain ⟨l, h⟩ := h []
  obtain ⟨e, s, h'⟩ := h' []
  rw [h] at h'
  cases h'

theorem Runs.inj {α : Type} {m : Rd α} {data : Bytes} {pos p p' : Nat} {a a' : α} (h : Runs m data pos (.ok a) p)
    (h' : Runs m data pos (.ok a') p') : a = a' ∧ p = p' := by
  obtain ⟨l, h⟩ := h []
  obtain ⟨l', h'⟩ := h' []
  rw [h] at h'
  simp only [Prod.mk.injEq, Except.ok.injEq, RState.mk.injEq] at h'
  exact ⟨h'.1, h'.2.2.1⟩

theorem Fails.bind {α β : Type} {m : Rd α} {f : α → Rd β} {data : Bytes} {pos : Nat} (h : Fails m data pos) :
    Fails (m >>= f) data pos := by
  intro log
  obtain ⟨e, s, h⟩ := h log
  exact ⟨e, s, bind_of_error h⟩

theorem Runs.bind_fails {α β : Type} {m : Rd α} {f : α → Rd β} {data : Bytes} {pos p : Nat} {a : α}
    (h : Runs m data pos (.ok a) p) (h' : Fails (f a) data p) : Fails (m >>= f) data pos := by
  intro log
  obtain ⟨l, h⟩ := h log
  obtain ⟨e, s, h'⟩ := h' l
  exact ⟨e, s, by rw [bind_of_ok h, h']⟩

/-- Going forward over a file, and what becomes of it when the file is cut at `n`. -/
structure Cuts {α : Type} (m : Rd α) : Prop where
  /-- It depends on the bytes alone, and goes forward. -/
  total : ∀ data pos, (∃ a p, Runs m data pos (.ok a) p ∧ pos ≤ p) ∨ Fails m data pos
  /-- As far as `n` nothing changes; otherwise it does not succeed, or it ends where the file does. -/
  cut : ∀ data n pos a p, pos ≤ n → n ≤ data.length → Runs m data pos (.ok a) p →
    (p ≤ n ∧ Runs m (data.take n) pos (.ok a) p) ∨
    (n < p ∧ (Fails m (data.take n) pos ∨ ∃ a', Runs m (data.take n) pos (.ok a') n))
  /-- At the end of the file it stays there. -/
  stuck : ∀ data, Fails m data data.length ∨ ∃ a, Runs m data data.length (.ok a) data.length

theorem Cuts.pure {α : Type} {a : α} : Cuts (Pure.pure a : Rd α) where
  total _ pos := Or.inl ⟨a, pos, Runs.pure, Nat.le_refl _⟩
  cut data n pos a' p hp _ h := by
    obtain ⟨rfl, rfl⟩ := h.inj Runs.pure
    exact Or.inl ⟨hp, Runs.pure⟩
  stuck _ := Or.inr ⟨a, Runs.pure⟩

theorem Cuts.fail {α : Type} {e : Fail} : Cuts (Rd.fail e : Rd α) where
  total _ _ := Or.inr fun _ => ⟨e, _, rfl⟩
  cut _ _ _ _ _ _ _ h := absurd (fun _ => ⟨e, _, rfl⟩) fun h' => h.ok_fails h'
  stuck _ := Or.inl fun _ => ⟨e, _, rfl⟩

theorem Cuts.lift {α : Type} {r : Res α} : Cuts (Rd.lift r) := by
  cases r with
  | ok a => exact Cuts.pure
  | error e => exact Cuts.fail

theorem Cuts.ite {α : Type} {c : Prop} [Decidable c] {m m' : Rd α} (h : Cuts m) (h' : Cuts m') :
    Cuts (if c then m else m') := by
  split <;> assumption

theorem Cuts.bind {α β : Type} {m : Rd α} {f : α → Rd β} (hm : Cuts m)
    (hf : ∀ a, (∃ data pos p, Runs m data pos (.ok a) p) → Cuts (f a)) : Cuts (m >>= f) := by
  have split : ∀ {data pos c p}, Runs (m >>= f) data pos (.ok c) p →
      ∃ a p1, Runs m data pos (.ok a) p1 ∧ pos ≤ p1 ∧ Runs (f a) data p1 (.ok c) p ∧ p1 ≤ p := by
    intro data pos c p h
    rcases hm.total data pos with ⟨a, p1, h1, h2⟩ | h1
    · rcases (hf a ⟨_, _, _, h1⟩).total data p1 with ⟨c', p', h3, h4⟩ | h3
      · obtain ⟨rfl, rfl⟩ := h.inj (h1.bind h3)
        exact ⟨a, p1, h1, h2, h3, h4⟩
      · exact absurd (h1.bind_fails h3) fun h' => h.ok_fails h'
    · exact absurd h1.bind fun h' => h.ok_fails h'
  refine ⟨fun data pos => ?_, fun data n pos c p hp hn h => ?_, fun data => ?_⟩
  · rcases hm.total data pos with ⟨a, p1, h1, h2⟩ | h1
    · rcases (hf a ⟨_, _, _, h1⟩).total data p1 with ⟨c', p', h3, h4⟩ | h3
      · exact Or.inl ⟨c', p', h1.bind h3, Nat.le_trans h2 h4⟩
      · exact Or.inr (h1.bind_fails h3)
    · exact Or.inr h1.bind
  · obtain ⟨a, p1, h1, h2, h3, h4⟩ := split h
    rcases hm.cut data n pos a p1 hp hn h1 with ⟨g1, g2⟩ | ⟨g1, g2 | ⟨a', g2⟩⟩
    · rcases (hf a ⟨_, _, _, h1⟩).cut data n p1 c p g1 hn h3 with ⟨k1, k2⟩ | ⟨k1, k2 | ⟨c', k2⟩⟩
      · exact Or.inl ⟨k1, g2.bind k2⟩
      · exact Or.inr ⟨k1, Or.inl (g2.bind_fails k2)⟩
      · exact Or.inr ⟨k1, Or.inr ⟨c', g2.bind k2⟩⟩
    · exact Or.inr ⟨by omega, Or.inl g2.bind⟩
    · have hl : (data.take n).length = n := by rw [List.length_take]; omega
      have hs := (hf a' ⟨_, _, _, g2⟩).stuck (data.take n)
      rw [hl] at hs
      rcases hs with k | ⟨c', k⟩
      · exact Or.inr ⟨by omega, Or.inl (g2.bind_fails k)⟩
      · exact Or.inr ⟨by omega, Or.inr ⟨c', g2.bind k⟩⟩
  · rcases hm.stuck data with h1 | ⟨a, h1⟩
    · exact Or.inl h1.bind
    · rcases (hf a ⟨_, _, _, h1⟩).stuck data with h2 | ⟨c, h2⟩
      · exact Or.inl (h1.bind_fails h2)
      · exact Or.inr ⟨c, h1.bind h2⟩

theorem readExact_fails {k : Nat} {data : Bytes} {pos : Nat} (h : (data.drop pos).length < k) : Fails (readExact k) data pos := by
  intro log
  obtain ⟨l, e⟩ := Runs.readExact_eof h log
  exact ⟨_, _, e⟩

theorem window_take {data : Bytes} {n pos k : Nat} (h : pos + k ≤ n) : ((data.take n).drop pos).take k = (data.drop pos).take k := by
  rw [List.drop_take, List.take_take]
  congr 1
  omega

theorem readExact_cuts (k : Nat) : Cuts (readExact k) where
  total data pos := by
    by_cases h : (data.drop pos).length < k
    · exact Or.inr (readExact_fails h)
    · exact Or.inl ⟨_, _, Runs.readExact rfl (by rw [List.length_take]; omega), Nat.le_add_right _ _⟩
  cut data n pos a p hp hn h := by
    by_cases hk : (data.drop pos).length < k
    · exact absurd (readExact_fails hk) fun h' => h.ok_fails h'
    obtain ⟨rfl, rfl⟩ := h.inj (Runs.readExact rfl (by rw [List.length_take]; omega))
    by_cases hl : pos + k ≤ n
    · exact Or.inl ⟨hl, Runs.readExact (window_take hl) (by rw [List.length_take]; omega)⟩
    · exact Or.inr ⟨by omega, Or.inl (readExact_fails (by rw [List.length_drop, List.length_take]; omega))⟩
  stuck data := by
    by_cases h : k = 0
    · subst h
      exact Or.inr ⟨[], Runs.readExact (by simp) rfl⟩
    · exact Or.inl (readExact_fails (by rw [List.length_drop]; omega))

theorem readBytes_cuts (k : Nat) : Cuts (readBytes k) where
  total data pos := Or.inl ⟨_, _, Runs.readBytes rfl, Nat.le_add_right _ _⟩
  cut data n pos a p hp hn h := by
    obtain ⟨rfl, rfl⟩ := h.inj (Runs.readBytes rfl)
    rw [List.length_take, List.length_drop]
    by_cases hl : pos + min k (data.length - pos) ≤ n
    · refine Or.inl ⟨hl, ?_⟩
      have e : ((data.take n).drop pos).take k = (data.drop pos).take k := by
        by_cases hk : pos + k ≤ n
        · exact window_take hk
        · rw [List.take_of_length_le (by omega : data.length ≤ n)]
      have := Runs.readBytes e
      rwa [List.length_take, List.length_drop] at this
    · refine Or.inr ⟨by omega, Or.inr ⟨((data.take n).drop pos).take k, ?_⟩⟩
      have := Runs.readBytes (rfl : ((data.take n).drop pos).take k = _)
      rw [List.length_take, List.length_drop, List.length_take] at this
      rwa [show pos + min k (min n data.length - pos) = n by omega] at this
  stuck data := by
    refine Or.inr ⟨[], ?_⟩
    exact Runs.readBytes (by simp)

theorem lfh_cuts (b : Build) : Cuts (lfh b) :=
  Cuts.bind (readExact_cuts _) fun _ _ => Cuts.ite
    (Cuts.bind (Cuts.bind (readExact_cuts _) fun _ _ => Cuts.pure) fun _ _ => Cuts.bind (readBytes_cuts _) fun _ _ =>
      Cuts.bind Cuts.lift fun _ _ => Cuts.bind (readBytes_cuts _) fun _ _ => Cuts.bind Cuts.lift fun _ _ =>
        Cuts.ite Cuts.fail (Cuts.ite Cuts.fail Cuts.pure))
    (Cuts.ite Cuts.pure Cuts.fail)

theorem descriptor_cuts (dd : Bool) : Cuts (if dd then consumeDataDescriptor else pure ()) :=
  Cuts.ite (Cuts.bind (readExact_cuts _) fun _ _ => Cuts.ite (Cuts.bind (readExact_cuts _) fun _ _ => Cuts.pure) Cuts.pure)
    Cuts.pure

/-! ## Reading an entry -/

theorem window_prefix {data : Bytes} {n pos len k : Nat} (h : pos + k ≤ n) :
    (window (data.take n) pos len).take k = (window data pos len).take k := by
  unfold window
  rw [List.take_take, List.take_take, window_take (by omega)]

/-- What is left of an entry when the file is cut. -/
theorem entryData_cut {C : Codec} (hC : FrontToBack C) {m : Compression} {data : Bytes} {n pos len : Nat} (hp : pos ≤ n)
    (hn : n ≤ data.length) (hok : (entryData C m data pos len).ok = true) :
    (pos + (entryData C m data pos len).used ≤ n ∧ entryData C m (data.take n) pos len = entryData C m data pos len) ∨
    (n < pos + (entryData C m data pos len).used ∧ ((entryData C m (data.take n) pos len).ok = false ∨
      pos + (entryData C m (data.take n) pos len).used = n)) := by
  have hw : (window data pos len).length = min len (data.length - pos) := by
    unfold window; rw [List.length_take, List.length_drop]
  have hw' : (window (data.take n) pos len).length = min len (n - pos) := by
    unfold window; rw [List.length_take, List.length_drop, List.length_take, Nat.min_eq_left hn]
  unfold entryData at hok ⊢
  by_cases hm : m = .stored
  · simp only [if_pos hm]
    rw [hw, hw']
    by_cases hl : pos + min len (data.length - pos) ≤ n
    · refine Or.inl ⟨hl, ?_⟩
      have e : window (data.take n) pos len = window data pos len := by
        by_cases hk : pos + len ≤ n
        · exact window_take hk
        · rw [List.take_of_length_le (by omega : data.length ≤ n)]
      rw [e]
      congr 1
      rw [← e] at hw
      rw [← hw, hw']
    · refine Or.inr ⟨by omega, Or.inr (by omega)⟩
  · simp only [if_neg hm] at hok ⊢
    obtain ⟨h1, h2⟩ := hC m _ hok
    by_cases hl : pos + (C.decode m (window data pos len)).used ≤ n
    · exact Or.inl ⟨hl, h2 _ (window_prefix hl)⟩
    · refine Or.inr ⟨by omega, Or.inl ?_⟩
      by_contra hf
      rw [Bool.not_eq_false] at hf
      obtain ⟨h3, h4⟩ := hC m _ hf
      have := h4 (window data pos len) (window_prefix (by omega)).symm
      rw [this] at hl
      omega

theorem entryData_eof {C : Codec} (hC : FrontToBack C) {m : Compression} {data : Bytes} {len : Nat}
    (hok : (entryData C m data data.length len).ok = true) : (entryData C m data data.length len).used = 0 := by
  have hw : window data data.length len = [] := by unfold window; simp
  unfold entryData at hok ⊢
  rw [hw] at hok ⊢
  by_cases hm : m = .stored
  · rw [if_pos hm]; rfl
  · rw [if_neg hm] at hok ⊢
    have := (hC m _ hok).1
    rw [List.length_nil] at this
    omega

/-- What a visit does with an entry before the data descriptor: what it read, and `done` or `skip`. -/
def consume (C : Codec) (er : EntryReader) (crc : UInt32) : Visit → Rd (Option Bytes)
  | .skip => do
    let _ ← er.readToEnd C 2048
    pure none
  | .read chunk => do
    let (d, er) ← er.readToEnd C chunk
    let (b, _) ← er.read C 1
    if b.length ≠ 0 then throwErr .eofNotReached else pure (some d)
  | .check chunk => do
    let (d, er) ← er.readToEndChecked C chunk crc
    let (b, _) ← er.read C 1
    if b.length ≠ 0 then throwErr .eofNotReached else pure (some d)
  | .part n chunk => do
    let (d, er) ← readUpTo C chunk n n er
    let _ ← er.readToEnd C 2048
    pure (some d)

/-- Whether the check, if there is one, fails. -/
def Refuses (v : Visit) (crc : UInt32) (d : Bytes) : Prop := ∃ k, v = .check k ∧ crc ≠ crc32 d

theorem does_ideal {α : Type} {m : Rd α} {s : RState} {P : α → RState → Prop} (hc : Calm m) (hs : s.sched = none)
    (h : Does m s P) : ∃ a s', m s = (.ok a, s') ∧ P a s' ∧ s'.sched = none := by
  obtain ⟨h1, h2⟩ := hc s hs
  rcases h with h | ⟨a, s', h, hp⟩
  · exact absurd h h1
  · exact ⟨a, s', h, hp, by rw [h] at h2; exact h2⟩

theorem readToEndChecked_calm (C : Codec) (chunk : Nat) (er : EntryReader) (crc : UInt32) :
    Calm (er.readToEndChecked C chunk crc) :=
  Calm.bind (readToEnd_calm C chunk er) fun _ => Calm.ite Calm.pure (Calm.throwErr fun c h => by cases h)

theorem consume_calm (C : Codec) (er : EntryReader) (crc : UInt32) (v : Visit) : Calm (consume C er crc v) := by
  cases v with
  | skip => exact Calm.bind (readToEnd_calm _ _ _) fun _ => Calm.pure
  | read k =>
    refine Calm.bind (readToEnd_calm _ _ _) fun _ => Calm.bind (read_calm _ _ _) fun _ => ?_
    exact Calm.ite (Calm.throwErr (fun c h => by cases h)) Calm.pure
  | check k =>
    refine Calm.bind (readToEndChecked_calm _ _ _ _) fun _ => Calm.bind (read_calm _ _ _) fun _ => ?_
    exact Calm.ite (Calm.throwErr (fun c h => by cases h)) Calm.pure
  | part n k => exact Calm.bind (readUpTo_calm _ _ _ _ _) fun _ => Calm.bind (readToEnd_calm _ _ _) fun _ => Calm.pure

/-- Reading a complete entry. -/
theorem consume_does {C : Codec} {m : Compression} {len : Nat} {crc : UInt32} {v : Visit} (hv : v.Buffered) {s : RState}
    (hok : (entryData C m s.data s.pos len).ok = true) (hr : ¬ Refuses v crc (entryData C m s.data s.pos len).out) :
    Does (consume C (EntryReader.new m len) crc v) s fun x s' => x = v.sees (entryData C m s.data s.pos len).out ∧
      s'.data = s.data ∧ s'.pos = s.pos + (entryData C m s.data s.pos len).used := by
  have hrest : (EntryReader.new m len).rest C s =
      ⟨(entryData C m s.data s.pos len).out, (entryData C m s.data s.pos len).used, true⟩ := by
    rw [rest_new, ← hok]
  generalize entryData C m s.data s.pos len = R at *
  cases v with
  | skip =>
    refine Does.bind (Does.readToEnd (by omega) hrest) fun x s1 h1 => Does.pure ⟨rfl, h1.2.1, h1.2.2.1⟩
  | read k =>
    refine Does.bind (Does.readToEnd hv hrest) fun x s1 h1 => ?_
    obtain ⟨h1, h2, h3, h4⟩ := h1
    refine Does.bind (Does.readNothing h4) fun y s2 h5 => ?_
    obtain ⟨g1, g2, g3⟩ := h5
    obtain ⟨y1, y2⟩ := y
    simp only at g1
    subst g1
    simp only [List.length_nil, ne_eq, not_true_eq_false, if_false]
    exact Does.pure ⟨by rw [h1]; rfl, g2.trans h2, g3.trans h3⟩
  | check k =>
    refine Does.bind (Does.readToEndChecked hv rfl hrest (by
      by_contra hne
      exact hr ⟨k, rfl, hne⟩)) fun x s1 h1 => ?_
    obtain ⟨h1, h2, h3, h4⟩ := h1
    refine Does.bind (Does.readNothing h4) fun y s2 h5 => ?_
    obtain ⟨g1, g2, g3⟩ := h5
    obtain ⟨y1, y2⟩ := y
    simp only at g1
    subst g1
    simp only [List.length_nil, ne_eq, not_true_eq_false, if_false]
    exact Does.pure ⟨by rw [h1]; rfl, g2.trans h2, g3.trans h3⟩
  | part n k =>
    refine Does.bind (Does.readUpTo hv (Nat.le_refl n) hrest) fun x s1 h1 => ?_
    obtain ⟨h1, h2, u, h3, h4⟩ := h1
    refine Does.bind (Does.readToEnd (by omega) h4) fun y s2 h5 => ?_
    exact Does.pure ⟨by rw [h1]; rfl, h5.2.1.trans h2, by rw [h5.2.2.1, h3]⟩

/-- Reading an entry that the decoder does not find complete, or whose checksum is not the recorded one. -/
theorem consume_fails {C : Codec} {m : Compression} {len : Nat} {crc : UInt32} {v : Visit} (hv : v.Buffered) {s : RState}
    (h : (entryData C m s.data s.pos len).ok = false ∨ Refuses v crc (entryData C m s.data s.pos len).out) :
    ∃ e s', consume C (EntryReader.new m len) crc v s = (.error e, s') := by
  rw [← rest_new] at h
  cases hr : consume C (EntryReader.new m len) crc v s with
  | mk r s' =>
    cases r with
    | error e => exact ⟨e, s', rfl⟩
    | ok x =>
      exfalso
      cases v with
      | skip =>
        obtain ⟨y, s1, h1, _⟩ := bind_ok_iff.1 hr
        have := (readToEnd_ok (b := y.1) (er' := y.2) (by omega) h1).2.1
        rcases h with h | ⟨k, h, _⟩
        · rw [this] at h; cases h
        · cases h
      | read k =>
        obtain ⟨y, s1, h1, _⟩ := bind_ok_iff.1 hr
        have := (readToEnd_ok (b := y.1) (er' := y.2) hv h1).2.1
        rcases h with h | ⟨k, h, _⟩
        · rw [this] at h; cases h
        · cases h
      | check k =>
        obtain ⟨y, s1, h1, _⟩ := bind_ok_iff.1 hr
        unfold EntryReader.readToEndChecked at h1
        obtain ⟨z, s2, h2, h3⟩ := bind_ok_iff.1 h1
        obtain ⟨g1, g2, _, _, g3⟩ := readToEnd_ok (b := z.1) (er' := z.2) hv h2
        simp only at h3
        rcases h with h | ⟨k, h, hne⟩
        · rw [g2] at h; cases h
        · by_cases hh : z.2.computeHash.1 = crc
          · apply hne
            rw [← hh, ← g1, show z.2.computeHash.1 = z.2.hasher.finalize from rfl, g3]
            rfl
          · rw [if_neg hh] at h3
            cases h3
      | part n k =>
        obtain ⟨y, s1, h1, h2⟩ := bind_ok_iff.1 hr
        obtain ⟨z, s2, h2, _⟩ := bind_ok_iff.1 h2
        have g1 := (readUpTo_ok (d := y.1) (er' := y.2) hv (Nat.le_refl n) h1).2.2.2.1
        have := (readToEnd_ok (b := z.1) (er' := z.2) (by omega) h2).2.1
        rcases h with h | ⟨k, h, _⟩
        · rw [g1, h] at this; cases this
        · cases h

theorem consume_runs {C : Codec} {m : Compression} {len : Nat} {crc : UInt32} {v : Visit} (hv : v.Buffered) {data : Bytes}
    {pos : Nat} (hok : (entryData C m data pos len).ok = true) (hr : ¬ Refuses v crc (entryData C m data pos len).out) :
    Runs (consume C (EntryReader.new m len) crc v) data pos (.ok (v.sees (entryData C m data pos len).out))
      (pos + (entryData C m data pos len).used) := by
  intro log
  obtain ⟨a, ⟨d, p, c, l⟩, h1, ⟨rfl, h2, h3⟩, h4⟩ := does_ideal (consume_calm _ _ _ _) (by rfl)
    (consume_does (s := ⟨data, pos, none, log⟩) (crc := crc) hv hok hr)
  simp only at h2 h3 h4
  subst h2 h3 h4
  exact ⟨l, h1⟩

theorem consume_cuts {C : Codec} (hC : FrontToBack C) {m : Compression} {len : Nat} {crc : UInt32} {v : Visit} (hv : v.Buffered) :
    Cuts (consume C (EntryReader.new m len) crc v) where
  total data pos := by
    by_cases h : (entryData C m data pos len).ok = false ∨ Refuses v crc (entryData C m data pos len).out
    · exact Or.inr fun log => consume_fails (s := ⟨data, pos, none, log⟩) hv h
    · rw [not_or, Bool.not_eq_false] at h
      exact Or.inl ⟨_, _, consume_runs hv h.1 h.2, Nat.le_add_right _ _⟩
  cut data n pos a p hp hn h := by
    by_cases hf : (entryData C m data pos len).ok = false ∨ Refuses v crc (entryData C m data pos len).out
    · exact absurd (fun log => consume_fails (s := ⟨data, pos, none, log⟩) hv hf) fun h' => h.ok_fails h'
    rw [not_or, Bool.not_eq_false] at hf
    obtain ⟨rfl, rfl⟩ := h.inj (consume_runs hv hf.1 hf.2)
    rcases entryData_cut hC hp hn hf.1 with ⟨h1, h2⟩ | ⟨h1, h2⟩
    · have := consume_runs (crc := crc) hv (h2 ▸ hf.1) (h2 ▸ hf.2)
      rw [h2] at this
      exact Or.inl ⟨h1, this⟩
    · refine Or.inr ⟨h1, ?_⟩
      by_cases hg : (entryData C m (data.take n) pos len).ok = false ∨ Refuses v crc (entryData C m (data.take n) pos len).out
      · exact Or.inl fun log => consume_fails (s := ⟨data.take n, pos, none, log⟩) hv hg
      · rw [not_or, Bool.not_eq_false] at hg
        have := consume_runs (crc := crc) hv hg.1 hg.2
        rcases h2 with h2 | h2
        · rw [hg.1] at h2; cases h2
        · rw [h2] at this
          exact Or.inr ⟨_, this⟩
  stuck data := by
    by_cases h : (entryData C m data data.length len).ok = false ∨ Refuses v crc (entryData C m data data.length len).out
    · exact Or.inl fun log => consume_fails (s := ⟨data, data.length, none, log⟩) hv h
    · rw [not_or, Bool.not_eq_false] at h
      have := consume_runs (crc := crc) hv h.1 h.2
      rw [entryData_eof hC h.1, Nat.add_zero] at this
      exact Or.inr ⟨_, this⟩

/-! ## Visits -/

theorem bind_assoc' {α β γ : Type} (m : Rd α) (f : α → Rd β) (g : β → Rd γ) : (m >>= f) >>= g = m >>= fun a => f a >>= g := by
  funext s
  rw [bind_def, bind_def, bind_def]
  cases m s with
  | mk r s1 => cases r <;> rfl

theorem pure_bind' {α β : Type} (a : α) (f : α → Rd β) : (pure a : Rd α) >>= f = f a := rfl

/-- A visit of an entry, with the data descriptor apart. -/
def visitOf (C : Codec) (v : Visit) (e : ZipEntry) : Rd (Option (ZipEntry × Option Bytes)) :=
  consume C (EntryReader.new e.compression (if e.dataDescriptor then 2 ^ 64 - 1 else e.compressedSize.toNat)) e.crc32 v >>= fun o =>
    (if e.dataDescriptor then consumeDataDescriptor else pure ()) >>= fun _ => pure (some (e, o))

theorem throwErr_bind {α β : Type} (e : ZipError) (f : α → Rd β) : (throwErr e : Rd α) >>= f = throwErr e := rfl

theorem ite_bind {α β : Type} {c : Prop} [Decidable c] (m m' : Rd α) (f : α → Rd β) :
    (if c then m else m') >>= f = if c then m >>= f else m' >>= f := by
  split <;> rfl

theorem visit_eq (C : Codec) (b : Build) (v : Visit) : visit C b v = lfh b >>= fun e =>
    match e with
    | none => pure none
    | some e => visitOf C v e := by
  unfold visit streamNext
  rw [bind_assoc']
  congr 1
  funext e
  cases e with
  | none => rfl
  | some e =>
    simp only [pure_bind']
    unfold visitOf
    cases v with
    | skip => simp only [consume, Reading.skip, bind_assoc', pure_bind']
    | read k =>
      simp only [consume, Reading.done, bind_assoc']
      congr 1; funext x
      congr 1; funext y
      split <;> rfl
    | check k =>
      simp only [consume, Reading.done, bind_assoc']
      congr 1; funext x
      congr 1; funext y
      split <;> rfl
    | part n k => simp only [consume, Reading.skip, bind_assoc', pure_bind']

theorem visit_cuts {C : Codec} (hC : FrontToBack C) (b : Build) {v : Visit} (hv : v.Buffered) : Cuts (visit C b v) := by
  rw [visit_eq]
  refine Cuts.bind (lfh_cuts b) fun e _ => ?_
  cases e with
  | none => exact Cuts.pure
  | some e =>
    exact Cuts.bind (consume_cuts hC hv) fun _ _ => Cuts.bind (descriptor_cuts _) fun _ _ => Cuts.pure

theorem Calm.of {α : Type} {m : Rd α} (hc : ChunkIndep m) (hk : Completes m) (hs : Keeps m) : Calm m := by
  rintro ⟨data, pos, sc, lg⟩ h
  refine ⟨?_, (hs _).2 h⟩
  simp only at h
  subst h
  obtain ⟨k, r, pos', hr, h⟩ := hk 0 data pos
  obtain ⟨log', e⟩ := h 0 []
  rcases ideal_of hc hk ⟨data, pos, some (List.replicate (k + 0) (.chunk 0)), []⟩ lg with g | ⟨g, _⟩
  · rw [e] at g; exact absurd g hr
  · rw [e] at g; rw [← g]; exact hr

theorem lfh_keeps (b : Build) : Keeps (lfh b) :=
  Keeps.bind (readExact_keeps _) fun _ => Keeps.ite
    (Keeps.bind (Keeps.bind (readExact_keeps _) fun _ => Keeps.pure) fun _ => Keeps.bind (readBytes_keeps _) fun _ =>
      Keeps.bind Keeps.lift fun _ => Keeps.bind (readBytes_keeps _) fun _ => Keeps.bind Keeps.lift fun _ =>
        Keeps.ite Keeps.fail (Keeps.ite Keeps.fail Keeps.pure))
    (Keeps.ite Keeps.pure Keeps.fail)

theorem visit_calm (C : Codec) (b : Build) (v : Visit) : Calm (visit C b v) := by
  rw [visit_eq]
  refine Calm.bind (Calm.of (lfh_chunkIndep b) (lfh_completes b) (lfh_keeps b)) fun e => ?_
  cases e with
  | none => exact Calm.pure
  | some e =>
    refine Calm.bind (consume_calm _ _ _ _) fun _ => Calm.bind (Calm.ite ?_ Calm.pure) fun _ => Calm.pure
    exact Calm.of consumeDataDescriptor_chunkIndep consumeDataDescriptor_completes (Keeps.bind (readExact_keeps _) fun _ =>
      Keeps.ite (Keeps.bind (readExact_keeps _) fun _ => Keeps.pure) Keeps.pure)

theorem visits_calm (C : Codec) (b : Build) : ∀ vs : List Visit, Calm (visits C b vs)
  | [] => Calm.pure
  | v :: vs => Calm.bind (visit_calm C b v) fun x => by
    cases x with
    | none => exact Calm.pure
    | some x => exact Calm.bind (visits_calm C b vs) fun _ => Calm.pure

/-- Being told that there are no more entries takes four bytes, the signature of the directory. -/
theorem visit_none {C : Codec} (b : Build) (v : Visit) {data : Bytes} {pos p : Nat}
    (h : Runs (visit C b v) data pos (.ok none) p) : (data.drop pos).take 4 = le32 CDH_SIGNATURE ∧ p = pos + 4 := by
  obtain ⟨l, h⟩ := h []
  rw [visit_eq] at h
  obtain ⟨e, s1, h1, h2⟩ := bind_ok_iff.1 h
  cases e with
  | some e =>
    obtain ⟨o, s2, h3, h4⟩ := bind_ok_iff.1 h2
    obtain ⟨_, s4, _, h4⟩ := bind_ok_iff.1 h4
    cases h4
  | none =>
    cases h2
    unfold lfh at h1
    obtain ⟨sig, s2, h2, h3⟩ := bind_ok_iff.1 h1
    by_cases c1 : fromLe32 sig = LFH_SIGNATURE
    · rw [if_pos c1] at h3
      obtain ⟨_, s3, _, h3⟩ := bind_ok_iff.1 h3
      obtain ⟨_, s4, _, h3⟩ := bind_ok_iff.1 h3
      obtain ⟨_, s5, _, h3⟩ := bind_ok_iff.1 h3
      obtain ⟨_, s6, _, h3⟩ := bind_ok_iff.1 h3
      obtain ⟨_, s7, _, h3⟩ := bind_ok_iff.1 h3
      split at h3
      · cases h3
      · split at h3 <;> cases h3
    · rw [if_neg c1] at h3
      by_cases c2 : fromLe32 sig = CDH_SIGNATURE
      · rw [if_pos c2] at h3
        cases h3
        by_cases hk : (data.drop pos).length < 4
        · obtain ⟨e, s, h'⟩ := readExact_fails hk []
          rw [h'] at h2
          cases h2
        · have hl : ((data.drop pos).take 4).length = 4 := by rw [List.length_take]; omega
          obtain ⟨l', h'⟩ := Runs.readExact rfl hl []
          rw [h'] at h2
          simp only [Prod.mk.injEq, Except.ok.injEq, RState.mk.injEq] at h2
          obtain ⟨rfl, _, rfl, _⟩ := h2
          refine ⟨?_, rfl⟩
          rw [← c2, le32_fromLe32 _ hl]
      · rw [if_neg c2] at h3
        cases h3

theorem visit_short {C : Codec} (b : Build) (v : Visit) {data : Bytes} {pos : Nat} (h : data.length < pos + 4) :
    Fails (visit C b v) data pos := by
  rw [visit_eq]
  exact Fails.bind (Fails.bind (readExact_fails (by rw [List.length_drop]; omega)))

theorem visits_total {C : Codec} (hC : FrontToBack C) (b : Build) : ∀ (vs : List Visit), (∀ v ∈ vs, v.Buffered) →
    Cuts (visits C b vs)
  | [], _ => Cuts.pure
  | v :: vs, hv => Cuts.bind (visit_cuts hC b (hv v List.mem_cons_self)) fun x _ => by
    cases x with
    | none => exact Cuts.pure
    | some x => exact Cuts.bind (visits_total hC b vs fun v h => hv v (List.mem_cons_of_mem _ h)) fun _ _ => Cuts.pure

theorem visits_not_nil {C : Codec} {b : Build} {w : Visit} {vs : List Visit} {data : Bytes} {pos p : Nat} :
    ¬ Runs (visits C b (w :: vs)) data pos (.ok ([], false)) p := by
  intro h
  obtain ⟨l, h⟩ := h []
  obtain ⟨x, s1, h1, h2⟩ := bind_ok_iff.1 h
  cases x with
  | none => cases h2
  | some x =>
    obtain ⟨y, s2, h3, h4⟩ := bind_ok_iff.1 h2
    cases h4

/-- A plan over the whole file, and over its beginning. -/
theorem visits_cut {C : Codec} (hC : FrontToBack C) (b : Build) {data : Bytes} {n : Nat} (hn : n ≤ data.length) :
    ∀ (vs : List Visit), (∀ v ∈ vs, v.Buffered) → ∀ (pos p : Nat) (xs : List (ZipEntry × Option Bytes)) (ended : Bool), pos ≤ n →
      Runs (visits C b vs) data pos (.ok (xs, ended)) p →
      (p ≤ n ∧ Runs (visits C b vs) (data.take n) pos (.ok (xs, ended)) p) ∨
      (n < p ∧ (Fails (visits C b vs) (data.take n) pos ∨
        ended = false ∧ ∃ z, Runs (visits C b vs) (data.take n) pos (.ok (xs.dropLast ++ [z], false)) n)) := by
  intro vs
  have hl : (data.take n).length = n := by rw [List.length_take]; omega
  induction vs with
  | nil =>
    intro _ pos p xs ended hp h
    obtain ⟨h1, rfl⟩ := h.inj Runs.pure
    cases h1
    exact Or.inl ⟨hp, Runs.pure⟩
  | cons v vs ih =>
    intro hv pos p xs ended hp h
    have hv' : ∀ v ∈ vs, v.Buffered := fun v h => hv v (List.mem_cons_of_mem _ h)
    have hc := visit_cuts (C := C) hC b (hv v List.mem_cons_self)
    rcases hc.total data pos with ⟨x, p1, h1, h2⟩ | h1
    swap
    · exact absurd (h1.bind) fun h' => h.ok_fails h'
    cases x with
    | none =>
      obtain ⟨g, rfl⟩ := visit_none b v h1
      have hrun : ∀ {d q q'}, Runs (visit C b v) d q (.ok none) q' → Runs (visits C b (v :: vs)) d q (.ok ([], true)) q' :=
        fun h => h.bind Runs.pure
      obtain ⟨h3, rfl⟩ := h.inj (hrun h1)
      cases h3
      rcases hc.cut data n pos none (pos + 4) hp hn h1 with ⟨k1, k2⟩ | ⟨k1, _⟩
      · exact Or.inl ⟨k1, hrun k2⟩
      · exact Or.inr ⟨k1, Or.inl (Fails.bind (visit_short b v (by omega)))⟩
    | some x =>
      rcases (visits_total hC b vs hv').total data p1 with ⟨⟨ys, ended'⟩, p2, h3, h4⟩ | h3
      swap
      · exact absurd (h1.bind_fails (Fails.bind h3)) fun h' => h.ok_fails h'
      have hrun : ∀ {d q q1 q2 z zs en}, Runs (visit C b v) d q (.ok (some z)) q1 → Runs (visits C b vs) d q1 (.ok (zs, en)) q2 →
          Runs (visits C b (v :: vs)) d q (.ok (z :: zs, en)) q2 := fun h h' => h.bind (h'.bind Runs.pure)
      obtain ⟨h5, rfl⟩ := h.inj (hrun h1 h3)
      simp only [Prod.mk.injEq] at h5
      obtain ⟨rfl, rfl⟩ := h5
      rcases hc.cut data n pos (some x) p1 hp hn h1 with ⟨k1, k2⟩ | ⟨k1, k2⟩
      · rcases ih hv' p1 p ys ended k1 h3 with ⟨k3, k4⟩ | ⟨k3, k4 | ⟨rfl, z, k4⟩⟩
        · exact Or.inl ⟨k3, hrun k2 k4⟩
        · exact Or.inr ⟨k3, Or.inl (k2.bind_fails (Fails.bind k4))⟩
        · refine Or.inr ⟨k3, Or.inr ⟨rfl, z, ?_⟩⟩
          have := hrun k2 k4
          cases ys with
          | nil =>
            cases vs with
            | nil =>
              obtain ⟨_, rfl⟩ := h3.inj Runs.pure
              omega
            | cons w vs => exact absurd h3 visits_not_nil
          | cons y ys => rwa [List.dropLast_cons_cons, List.cons_append]
      · refine Or.inr ⟨by omega, ?_⟩
        rcases k2 with k2 | ⟨z, k2⟩
        · exact Or.inl (Fails.bind k2)
        · cases z with
          | none =>
            obtain ⟨g, rfl⟩ := visit_none b v k2
            rw [window_take (Nat.le_refl _)] at g
            have hdrop : data.drop pos = le32 CDH_SIGNATURE ++ (data.drop pos).drop 4 := by rw [← g, List.take_append_drop]
            have := (h1.inj (Runs.bind (Runs.nextNone hdrop) Runs.pure)).1
            cases this
          | some z =>
            cases vs with
            | nil =>
              obtain ⟨h5, rfl⟩ := h3.inj Runs.pure
              cases h5
              exact Or.inr ⟨rfl, z, hrun k2 Runs.pure⟩
            | cons w vs =>
              exact Or.inl (k2.bind_fails (Fails.bind (Fails.bind (visit_short b w (by omega)))))

end AsyncZip
