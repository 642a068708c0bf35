import Verif.Spec.Steady
import Verif.Proofs.Visits
import Verif.Proofs.Access
import Verif.Proofs.Progress
/-!
# Two runs over the same data
-/

namespace AsyncZip
open Spec Rd

/-- Two runs, in step: one of them is interrupted, or both fail alike, or both succeed with `R`. -/
def InStep {α β : Type} (m : Rd α) (m' : Rd β) (s s' : RState) (R : α → RState → β → RState → Prop) : Prop :=
  Interrupted (m s).1 ∨ Interrupted (m' s').1 ∨ (∃ e, (m s).1 = .error e ∧ (m' s').1 = .error e) ∨
    ∃ a t a' t', m s = (.ok a, t) ∧ m' s' = (.ok a', t') ∧ R a t a' t'

theorem InStep.bind {α β γ δ : Type} {m : Rd α} {m' : Rd β} {f : α → Rd γ} {f' : β → Rd δ} {s s' : RState}
    {R : α → RState → β → RState → Prop} {Q : γ → RState → δ → RState → Prop} (h : InStep m m' s s' R)
    (k : ∀ a t a' t', R a t a' t' → InStep (f a) (f' a') t t' Q) : InStep (m >>= f) (m' >>= f') s s' Q := by
  rcases h with h | h | ⟨e, h, h'⟩ | ⟨a, t, a', t', h, h', hr⟩
  · left
    cases hm : m s with
    | mk r t =>
      rw [hm] at h
      cases r with
      | ok a => exact absurd h not_interrupted_ok
      | error e => rw [bind_of_error hm]; exact interrupted_cast h
  · right; left
    cases hm : m' s' with
    | mk r t =>
      rw [hm] at h
      cases r with
      | ok a => exact absurd h not_interrupted_ok
      | error e => rw [bind_of_error hm]; exact interrupted_cast h
  · right; right; left
    refine ⟨e, ?_, ?_⟩
    · rw [bind_of_error (e := e) (s1 := (m s).2) (Prod.ext h rfl)]
    · rw [bind_of_error (e := e) (s1 := (m' s').2) (Prod.ext h' rfl)]
  · have := k a t a' t' hr
    unfold InStep
    rw [bind_of_ok h, bind_of_ok h']
    exact this

theorem InStep.pure {α β : Type} {a : α} {a' : β} {s s' : RState} {R : α → RState → β → RState → Prop} (h : R a s a' s') :
    InStep (Pure.pure a : Rd α) (Pure.pure a' : Rd β) s s' R :=
  Or.inr (Or.inr (Or.inr ⟨a, s, a', s', rfl, rfl, h⟩))

theorem InStep.throwErr {α β : Type} {e : ZipError} {s s' : RState} {R : α → RState → β → RState → Prop} :
    InStep (throwErr e : Rd α) (throwErr e : Rd β) s s' R :=
  Or.inr (Or.inr (Or.inl ⟨_, rfl, rfl⟩))

theorem InStep.ite {α β : Type} {c c' : Prop} [Decidable c] [Decidable c'] (hc : c ↔ c') {m n : Rd α} {m' n' : Rd β}
    {s s' : RState} {R : α → RState → β → RState → Prop} (h : c → InStep m m' s s' R) (g : ¬ c → InStep n n' s s' R) :
    InStep (if c then m else n) (if c' then m' else n') s s' R := by
  by_cases hh : c
  · rw [if_pos hh, if_pos (hc.1 hh)]; exact h hh
  · rw [if_neg hh, if_neg (fun k => hh (hc.2 k))]; exact g hh

theorem InStep.mono {α β : Type} {m : Rd α} {m' : Rd β} {s s' : RState} {R Q : α → RState → β → RState → Prop}
    (h : InStep m m' s s' R) (k : ∀ a t a' t', R a t a' t' → Q a t a' t') : InStep m m' s s' Q := by
  rcases h with h | h | h | ⟨a, t, a', t', h, h', hr⟩
  · exact Or.inl h
  · exact Or.inr (Or.inl h)
  · exact Or.inr (Or.inr (Or.inl h))
  · exact Or.inr (Or.inr (Or.inr ⟨a, t, a', t', h, h', k _ _ _ _ hr⟩))

theorem InStep.steady {α : Type} {m m' : Rd α} {s s' : RState} {R : α → RState → α → RState → Prop}
    (h : InStep m m' s s' R) (k : ∀ a t a' t', R a t a' t' → a = a') : Steady (m s).1 (m' s').1 := by
  rcases h with h | h | ⟨e, h, h'⟩ | ⟨a, t, a', t', h, h', hr⟩
  · exact Or.inl h
  · exact Or.inr (Or.inl h)
  · exact Or.inr (Or.inr (by rw [h, h']))
  · exact Or.inr (Or.inr (by rw [h, h', k _ _ _ _ hr]))

/-- The two runs end alike and at the same place. -/
def EvenUp {α : Type} (a : α) (t : RState) (a' : α) (t' : RState) : Prop := a = a' ∧ t.data = t'.data ∧ t.pos = t'.pos

/-- A run that is not interrupted ends like the run of the ideal source. -/
theorem ideal_of {α : Type} {m : Rd α} (hc : ChunkIndep m) (hk : Completes m) (s : RState) (log : List RdEvent) :
    Interrupted (m s).1 ∨ ((m s).1 = (m ⟨s.data, s.pos, none, log⟩).1 ∧
      (m s).2.data = (m ⟨s.data, s.pos, none, log⟩).2.data ∧ (m s).2.pos = (m ⟨s.data, s.pos, none, log⟩).2.pos) := by
  obtain ⟨data, pos, sc, lg⟩ := s
  cases sc with
  | some rs =>
    rcases hc data pos lg log rs with h | ⟨h1, h2, h3, _⟩
    · exact Or.inl h
    · exact Or.inr ⟨h1, h2, h3⟩
  | none =>
    right
    obtain ⟨k, r, pos', hr, h⟩ := hk 0 data pos
    obtain ⟨log', e⟩ := h 0 []
    have hn : ¬ Interrupted (m ⟨data, pos, some (List.replicate (k + 0) (.chunk 0)), []⟩).1 := by rw [e]; exact hr
    rcases hc data pos [] lg (List.replicate (k + 0) (.chunk 0)) with h1 | ⟨h1, h2, h3, _⟩
    · exact absurd h1 hn
    rcases hc data pos [] log (List.replicate (k + 0) (.chunk 0)) with g1 | ⟨g1, g2, g3, _⟩
    · exact absurd g1 hn
    exact ⟨h1.symm.trans g1, h2.symm.trans g2, h3.symm.trans g3⟩

theorem InStep.of_chunkIndep {α : Type} {m : Rd α} (hc : ChunkIndep m) (hk : Completes m) {s s' : RState}
    (hd : s.data = s'.data) (hp : s.pos = s'.pos) : InStep m m s s' EvenUp := by
  rcases ideal_of hc hk s [] with h | ⟨h1, h2, h3⟩
  · exact Or.inl h
  rcases ideal_of hc hk s' [] with g | ⟨g1, g2, g3⟩
  · exact Or.inr (Or.inl g)
  rw [← hd, ← hp] at g1 g2 g3
  right; right
  cases hm : m s with
  | mk r t =>
    cases hm' : m s' with
    | mk r' t' =>
      rw [hm] at h1 h2 h3
      rw [hm'] at g1 g2 g3
      have e1 : r = r' := h1.trans g1.symm
      subst e1
      cases r with
      | error e => exact Or.inl ⟨e, rfl, rfl⟩
      | ok a => exact Or.inr ⟨a, t, a, t', rfl, rfl, rfl, h2.trans g2.symm, h3.trans g3.symm⟩

theorem InStep.readToEnd {C : Codec} {chunk chunk' : Nat} (hc : 0 < chunk) (hc' : 0 < chunk') {er er' : EntryReader}
    {s s' : RState} (hd : s.data = s'.data) (hp : s.pos + (er.rest C s).used = s'.pos + (er'.rest C s').used)
    (ho : (er.rest C s).out = (er'.rest C s').out) (hr : (er.rest C s).ok = (er'.rest C s').ok) :
    InStep (er.readToEnd C chunk) (er'.readToEnd C chunk') s s' fun x t x' t' => x.1 = x'.1 ∧
      t.data = t'.data ∧ t.pos = t'.pos ∧ x.2.rest C t = ⟨[], 0, true⟩ ∧ x'.2.rest C t' = ⟨[], 0, true⟩ ∧
      x.2.hasher = er.hasher.update x.1 ∧ x'.2.hasher = er'.hasher.update x'.1 := by
  by_cases hok : (er.rest C s).ok = true
  · obtain ⟨d, k, o, hz⟩ : ∃ d k o, er.rest C s = ⟨d, k, o⟩ := ⟨_, _, _, rfl⟩
    obtain ⟨d', k', o', hz'⟩ : ∃ d k o, er'.rest C s' = ⟨d, k, o⟩ := ⟨_, _, _, rfl⟩
    rw [hz] at hok
    rw [hz, hz'] at hr hp ho
    simp only at hok hr hp ho
    subst hok ho hr
    rcases Does.readToEnd hc hz with h | ⟨x, t, h, h1, h2, h3, h4⟩
    · exact Or.inl h
    rcases Does.readToEnd hc' hz' with g | ⟨x', t', g, g1, g2, g3, g4⟩
    · exact Or.inr (Or.inl g)
    obtain ⟨_, _, _, _, u⟩ := readToEnd_ok (b := x.1) (er' := x.2) hc h
    obtain ⟨_, _, _, _, u'⟩ := readToEnd_ok (b := x'.1) (er' := x'.2) hc' g
    refine Or.inr (Or.inr (Or.inr ⟨x, t, x', t', h, g, h1.trans g1.symm, ?_, ?_, h4, g4, u, u'⟩))
    · rw [h2, g2, hd]
    · rw [h3, g3, hp]
  · have key : ∀ {er : EntryReader} {chunk : Nat} {s : RState}, 0 < chunk → ¬ (er.rest C s).ok = true →
        Interrupted (er.readToEnd C chunk s).1 ∨ (er.readToEnd C chunk s).1 = .error (.err (.upstreamReadError .invalidData)) := by
      intro er chunk s hc hok
      cases hm : er.readToEnd C chunk s with
      | mk r t =>
        cases r with
        | ok x => exact absurd (readToEnd_ok (b := x.1) (er' := x.2) hc hm).2.1 hok
        | error e =>
          rcases (readToEnd_err hm).2 with h | ⟨h, _⟩
          · exact Or.inl (interrupted_cast h)
          · right; rw [h]
    rcases key hc hok with h | h
    · exact Or.inl h
    rcases key (er := er') hc' (by rw [← hr]; exact hok) with g | g
    · exact Or.inr (Or.inl g)
    · exact Or.inr (Or.inr (Or.inl ⟨_, h, g⟩))

theorem InStep.readToEnd' {C : Codec} {chunk chunk' : Nat} (hc : 0 < chunk) (hc' : 0 < chunk') {er er' : EntryReader}
    {s s' : RState} (hd : s.data = s'.data) (hp : s.pos = s'.pos) (hr : er.rest C s = er'.rest C s') :
    InStep (er.readToEnd C chunk) (er'.readToEnd C chunk') s s' fun x t x' t' => x.1 = x'.1 ∧
      t.data = t'.data ∧ t.pos = t'.pos ∧ x.2.rest C t = ⟨[], 0, true⟩ ∧ x'.2.rest C t' = ⟨[], 0, true⟩ ∧
      x.2.hasher = er.hasher.update x.1 ∧ x'.2.hasher = er'.hasher.update x'.1 :=
  InStep.readToEnd hc hc' hd (by rw [hp, hr]) (by rw [hr]) (by rw [hr])

theorem InStep.readUpTo {C : Codec} {chunk chunk' n : Nat} (hc : 0 < chunk) (hc' : 0 < chunk') {er er' : EntryReader}
    {s s' : RState} (hd : s.data = s'.data) (hp : s.pos = s'.pos) (hr : er.rest C s = er'.rest C s') :
    InStep (Spec.readUpTo C chunk n n er) (Spec.readUpTo C chunk' n n er') s s' fun x t x' t' => x.1 = x'.1 ∧
      t.data = t'.data ∧ t.pos + (x.2.rest C t).used = t'.pos + (x'.2.rest C t').used ∧
      (x.2.rest C t).out = (x'.2.rest C t').out ∧ (x.2.rest C t).ok = (x'.2.rest C t').ok := by
  cases hm : Spec.readUpTo C chunk n n er s with
  | mk r t =>
    cases hm' : Spec.readUpTo C chunk' n n er' s' with
    | mk r' t' =>
      cases r with
      | error e =>
        rcases readUpTo_err hc (Nat.le_refl n) hm with h | ⟨h1, h2, h3⟩
        · exact Or.inl (by rw [hm]; exact interrupted_cast h)
        cases r' with
        | error e' =>
          rcases readUpTo_err hc' (Nat.le_refl n) hm' with g | ⟨g1, _, _⟩
          · exact Or.inr (Or.inl (by rw [hm']; exact interrupted_cast g))
          · exact Or.inr (Or.inr (Or.inl ⟨e, by rw [hm], by rw [hm', g1, h1]⟩))
        | ok x' =>
          obtain ⟨_, _, _, _, _, g⟩ := readUpTo_ok (d := x'.1) (er' := x'.2) hc' (Nat.le_refl n) hm'
          rw [← hr] at g
          rcases g with g | g
          · omega
          · rw [h3] at g; cases g
      | ok x =>
        obtain ⟨h1, h2, h3, h4, h5, h6⟩ := readUpTo_ok (d := x.1) (er' := x.2) hc (Nat.le_refl n) hm
        cases r' with
        | error e' =>
          rcases readUpTo_err hc' (Nat.le_refl n) hm' with g | ⟨_, g2, g3⟩
          · exact Or.inr (Or.inl (by rw [hm']; exact interrupted_cast g))
          · rw [← hr] at g2 g3
            rcases h6 with h6 | h6
            · omega
            · rw [g3] at h6; cases h6
        | ok x' =>
          obtain ⟨g1, g2, g3, g4, g5, _⟩ := readUpTo_ok (d := x'.1) (er' := x'.2) hc' (Nat.le_refl n) hm'
          refine Or.inr (Or.inr (Or.inr ⟨x, t, x', t', hm, hm', ?_, ?_, ?_, ?_, ?_⟩))
          · rw [h2, g2, hr]
          · rw [h1, g1, hd]
          · rw [h5, g5, hp, hr]
          · rw [h3, g3, hr]
          · rw [h4, g4, hr]

theorem InStep.read1 {C : Codec} {er er' : EntryReader} {s s' : RState} (hd : s.data = s'.data) (hp : s.pos = s'.pos)
    (he : er.rest C s = ⟨[], 0, true⟩) (he' : er'.rest C s' = ⟨[], 0, true⟩) :
    InStep (er.read C 1) (er'.read C 1) s s' fun x t x' t' => x.1 = [] ∧ x'.1 = [] ∧ t.data = t'.data ∧ t.pos = t'.pos := by
  rcases Does.readNothing he with h | ⟨x, t, h, h1, h2, h3⟩
  · exact Or.inl h
  rcases Does.readNothing he' with g | ⟨x', t', g, g1, g2, g3⟩
  · exact Or.inr (Or.inl g)
  exact Or.inr (Or.inr (Or.inr ⟨x, t, x', t', h, g, h1, g1, by rw [h2, g2, hd], by rw [h3, g3, hp]⟩))

theorem streamNext_completes (b : Build) : Completes (streamNext b) := Completes.bind (lfh_completes b) fun e => by
  cases e <;> exact Completes.pure

theorem consumeDataDescriptor_completes : Completes consumeDataDescriptor :=
  Completes.bind (readExact_completes _) fun _ =>
    Completes.ite (Completes.bind (readExact_completes _) fun _ => Completes.pure) Completes.pure

theorem InStep.descriptor {dd : Bool} {s s' : RState} (hd : s.data = s'.data) (hp : s.pos = s'.pos) :
    InStep (if dd then consumeDataDescriptor else Pure.pure ()) (if dd then consumeDataDescriptor else Pure.pure ()) s s' EvenUp := by
  cases dd
  · exact InStep.pure ⟨rfl, hd, hp⟩
  · exact InStep.of_chunkIndep consumeDataDescriptor_chunkIndep consumeDataDescriptor_completes hd hp

theorem InStep.visit (C : Codec) (b : Build) {v v' : Visit} (h : SameVisit v v') {s s' : RState} (hd : s.data = s'.data)
    (hp : s.pos = s'.pos) : InStep (visit C b v) (visit C b v') s s' EvenUp := by
  refine InStep.bind (InStep.of_chunkIndep (streamNext_chunkIndep b) (streamNext_completes b) hd hp) fun r t r' t' hl => ?_
  obtain ⟨rfl, hd, hp⟩ := hl
  cases r with
  | none => exact InStep.pure ⟨rfl, hd, hp⟩
  | some r =>
    cases h with
    | skip =>
      refine InStep.bind (InStep.bind (InStep.readToEnd' (by omega) (by omega) hd hp (rest_congr hd hp))
        fun x u x' u' hx => InStep.descriptor hx.2.1 hx.2.2.1) fun _ w _ w' hw => InStep.pure ⟨rfl, hw.2⟩
    | read hk hk' =>
      refine InStep.bind (InStep.readToEnd' hk hk' hd hp (rest_congr hd hp)) fun x u x' u' hx => ?_
      obtain ⟨h1, hd, hp, hr, hr', _, _⟩ := hx
      refine InStep.bind (R := EvenUp) (InStep.bind (InStep.read1 hd hp hr hr') fun y w y' w' hy => ?_) fun _ w _ w' hw =>
        InStep.pure ⟨by rw [h1], hw.2⟩
      exact InStep.ite (by rw [hy.1, hy.2.1]) (fun hne => absurd (by rw [hy.1]; rfl) hne) fun _ =>
        InStep.descriptor hy.2.2.1 hy.2.2.2
    | check hk hk' =>
      refine InStep.bind (R := fun (y : Bytes × EntryReader) u (y' : Bytes × EntryReader) u' => y.1 = y'.1 ∧ u.data = u'.data ∧
        u.pos = u'.pos ∧ y.2.rest C u = ⟨[], 0, true⟩ ∧ y'.2.rest C u' = ⟨[], 0, true⟩)
        (InStep.bind (InStep.readToEnd' hk hk' hd hp (rest_congr hd hp)) fun y u y' u' hy => ?_) fun x u x' u' hx => ?_
      · obtain ⟨h1, hd, hp, hr, hr', h2, h3⟩ := hy
        have hh : y.2.hasher = y'.2.hasher := by rw [h2, h3, h1]
        exact InStep.ite (by simp only [hh]) (fun _ => InStep.pure ⟨h1, hd, hp, hr, hr'⟩)
          fun _ => InStep.throwErr
      · obtain ⟨h1, hd, hp, hr, hr'⟩ := hx
        refine InStep.bind (R := EvenUp) (InStep.bind (InStep.read1 hd hp hr hr') fun y w y' w' hy => ?_) fun _ w _ w' hw =>
          InStep.pure ⟨by rw [h1], hw.2⟩
        exact InStep.ite (by rw [hy.1, hy.2.1]) (fun hne => absurd (by rw [hy.1]; rfl) hne) fun _ =>
          InStep.descriptor hy.2.2.1 hy.2.2.2
    | part hk hk' =>
      refine InStep.bind (InStep.readUpTo hk hk' hd hp (rest_congr hd hp)) fun x u x' u' hx => ?_
      obtain ⟨h1, hd, hp, ho, hr⟩ := hx
      refine InStep.bind (InStep.bind (InStep.readToEnd (by omega) (by omega) hd hp ho hr)
        fun x u x' u' hx => InStep.descriptor hx.2.1 hx.2.2.1) fun _ w _ w' hw => InStep.pure ⟨by rw [h1], hw.2⟩

theorem InStep.visits (C : Codec) (b : Build) {vs vs' : List Visit} (h : SamePlan vs vs') : ∀ {s s' : RState},
    s.data = s'.data → s.pos = s'.pos → InStep (visits C b vs) (visits C b vs') s s' EvenUp := by
  induction h with
  | nil => exact fun hd hp => InStep.pure ⟨rfl, hd, hp⟩
  | cons h _ ih =>
    intro s s' hd hp
    refine InStep.bind (InStep.visit C b h hd hp) fun x t x' t' hx => ?_
    obtain ⟨rfl, hd, hp⟩ := hx
    cases x with
    | none => exact InStep.pure ⟨rfl, hd, hp⟩
    | some x =>
      refine InStep.bind (ih hd hp) fun y w y' w' hy => ?_
      obtain ⟨rfl, hd, hp⟩ := hy
      exact InStep.pure ⟨rfl, hd, hp⟩

/-- Opening an entry leads to the same place from wherever the source stands. -/
theorem InStep.open {f : ZipFile} {i : Nat} {s s' : RState} (hd : s.data = s'.data) :
    InStep (readerWithEntry f i) (readerWithEntry f i) s s' EvenUp := by
  cases hi : f.entries[i]? with
  | none =>
    unfold readerWithEntry
    rw [hi]
    exact InStep.throwErr
  | some e =>
    have hlt : i < f.entries.length := by
      by_contra hc
      rw [List.getElem?_eq_none (by omega)] at hi
      cases hi
    have hc : ChunkIndep (readerWithEntry f i) := by
      unfold readerWithEntry
      rw [hi]
      exact ChunkIndep.bind (seekToDataOffset_chunkIndep _) fun _ => ChunkIndep.pure _
    have hk : Completes (readerWithEntry f i) := by
      unfold readerWithEntry
      rw [hi]
      exact Completes.bind (seekToDataOffset_completes _) fun _ => Completes.pure
    obtain ⟨d, p, sc, lg⟩ := s
    obtain ⟨d', p', sc', lg'⟩ := s'
    simp only at hd
    subst hd
    obtain ⟨g1, g2, g3, g4⟩ := readerWithEntry_posIndep hlt d p' p sc' lg' lg'
    rcases InStep.of_chunkIndep hc hk (s := ⟨d, p, sc, lg⟩) (s' := ⟨d, p, sc', lg'⟩) rfl rfl with h | h | ⟨e, h, h'⟩ | ⟨a, t, a', t', h, h', hr⟩
    · exact Or.inl h
    · exact Or.inr (Or.inl (by rw [g1]; exact h))
    · exact Or.inr (Or.inr (Or.inl ⟨e, h, g1.trans h'⟩))
    · rw [h'] at g1 g2 g3
      refine Or.inr (Or.inr (Or.inr ⟨a, t, a', (readerWithEntry f i ⟨d, p', sc', lg'⟩).2, h, Prod.ext g1 rfl, hr.1, hr.2.1.trans g2.symm, ?_⟩))
      rw [g4 _ g1, h']
      exact hr.2.2

theorem InStep.checkedRead (C : Codec) (f : ZipFile) (i : Nat) {chunk chunk' : Nat} (hc : 0 < chunk) (hc' : 0 < chunk')
    {s s' : RState} (hd : s.data = s'.data) : InStep (checkedRead C f i chunk) (checkedRead C f i chunk') s s' EvenUp := by
  refine InStep.bind (InStep.open hd) fun x t x' t' hx => ?_
  obtain ⟨rfl, hd, hp⟩ := hx
  refine InStep.bind (R := fun (y : Bytes × EntryReader) u (y' : Bytes × EntryReader) u' => y.1 = y'.1 ∧ u.data = u'.data ∧ u.pos = u'.pos)
    (InStep.bind (InStep.readToEnd' hc hc' hd hp (rest_congr hd hp)) fun y u y' u' hy => ?_)
    fun y u y' u' hy => InStep.pure hy
  obtain ⟨h1, hd, hp, _, _, h2, h3⟩ := hy
  have hh : y.2.hasher = y'.2.hasher := by rw [h2, h3, h1]
  exact InStep.ite (by simp only [hh]) (fun _ => InStep.pure ⟨h1, hd, hp⟩) fun _ => InStep.throwErr

end AsyncZip
