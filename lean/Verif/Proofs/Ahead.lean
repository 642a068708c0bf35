import Verif.Spec.Ahead
import Verif.Proofs.CutStream
/-!
# Streaming depends on what lies ahead, up to where the client gets
-/

namespace AsyncZip
open Spec Rd

/-! ## Ahead -/

/-- `m` depends on what lies ahead only, and goes forward. -/
def Ahead {α : Type} (m : Rd α) : Prop := ∀ s t : RState, SameAhead s t → (m s).1 = (m t).1 ∧ SameAhead (m s).2 (m t).2 ∧
  ∃ k, (m s).2.pos = s.pos + k ∧ (m t).2.pos = t.pos + k

theorem Ahead.of {α : Type} {m : Rd α} (h : ∀ s t : RState, SameAhead s t → ∃ r s' t' k, m s = (r, s') ∧ m t = (r, t') ∧
    SameAhead s' t' ∧ s'.pos = s.pos + k ∧ t'.pos = t.pos + k) : Ahead m := by
  intro s t hst
  obtain ⟨r, s', t', k, h1, h2, h3, h4, h5⟩ := h s t hst
  rw [h1, h2]
  exact ⟨rfl, h3, k, h4, h5⟩

theorem Ahead.out {α : Type} {m : Rd α} (h : Ahead m) {s t : RState} (hst : SameAhead s t) : ∃ r s' t' k, m s = (r, s') ∧
    m t = (r, t') ∧ SameAhead s' t' ∧ s'.pos = s.pos + k ∧ t'.pos = t.pos + k := by
  obtain ⟨h1, h2, k, h3, h4⟩ := h s t hst
  exact ⟨(m s).1, (m s).2, (m t).2, k, rfl, Prod.ext h1.symm rfl, h2, h3, h4⟩

theorem Ahead.pure {α : Type} {a : α} : Ahead (Pure.pure a : Rd α) := fun _ _ h => ⟨rfl, h, 0, rfl, rfl⟩
theorem Ahead.fail {α : Type} {e : Fail} : Ahead (Rd.fail e : Rd α) := fun _ _ h => ⟨rfl, h, 0, rfl, rfl⟩
theorem Ahead.lift {α : Type} {r : Res α} : Ahead (Rd.lift r) := fun _ _ h => ⟨rfl, h, 0, rfl, rfl⟩

theorem Ahead.ite {α : Type} {c : Prop} [Decidable c] {m m' : Rd α} (h : Ahead m) (h' : Ahead m') :
    Ahead (if c then m else m') := by
  split <;> assumption

theorem Ahead.bind {α β : Type} {m : Rd α} {f : α → Rd β} (hm : Ahead m) (hf : ∀ a, Ahead (f a)) : Ahead (m >>= f) := by
  refine Ahead.of fun s t hst => ?_
  obtain ⟨r, s1, t1, k, h1, h2, h3, h4, h5⟩ := hm.out hst
  cases r with
  | error e => exact ⟨_, s1, t1, k, bind_of_error h1, bind_of_error h2, h3, h4, h5⟩
  | ok a =>
    obtain ⟨r, s2, t2, k', g1, g2, g3, g4, g5⟩ := (hf a).out h3
    exact ⟨r, s2, t2, k + k', by rw [bind_of_ok h1, g1], by rw [bind_of_ok h2, g2], g3, by omega, by omega⟩

theorem drop_ahead {x y : Bytes} {p q k : Nat} (h : x.drop p = y.drop q) : x.drop (p + k) = y.drop (q + k) := by
  rw [← List.drop_drop, h, List.drop_drop]

theorem readSched_ahead (n : Nat) : ∀ (rs : List RdResp) (s t : RState), SameAhead s t → ∃ r s' t' k,
    readSched n s rs = (r, s') ∧ readSched n t rs = (r, t') ∧ SameAhead s' t' ∧ s'.pos = s.pos + k ∧ t'.pos = t.pos + k
  | [], _, _, h => ⟨_, _, _, 0, rfl, rfl, ⟨h.bytes, rfl⟩, rfl, rfl⟩
  | .pending :: rs, s, t, h => readSched_ahead n rs s t h
  | .error _ :: _, _, _, h => ⟨_, _, _, 0, rfl, rfl, ⟨h.bytes, rfl⟩, rfl, rfl⟩
  | .chunk c :: rs, s, t, h => by
    have e : (t.data.drop t.pos).take (min n (c + 1)) = (s.data.drop s.pos).take (min n (c + 1)) := by rw [h.bytes]
    have e2 : readSched n t (.chunk c :: rs) = (.ok ((s.data.drop s.pos).take (min n (c + 1))),
        { t with pos := t.pos + ((s.data.drop s.pos).take (min n (c + 1))).length, sched := some rs
                 log := t.log ++ [.read t.pos n] }) := by
      rw [← e]; rfl
    exact ⟨_, _, _, ((s.data.drop s.pos).take (min n (c + 1))).length, rfl, e2, ⟨drop_ahead h.bytes, rfl⟩, rfl, rfl⟩

theorem readOnce_ahead (n : Nat) : Ahead (readOnce n) := by
  refine Ahead.of fun s t h => ?_
  unfold readOnce
  rw [← h.answers]
  cases hs : s.sched with
  | some rs => exact readSched_ahead n rs s t h
  | none =>
    have e : (t.data.drop t.pos).take n = (s.data.drop s.pos).take n := by rw [h.bytes]
    simp only [e]
    exact ⟨_, _, _, ((s.data.drop s.pos).take n).length, rfl, rfl, ⟨drop_ahead h.bytes, rfl⟩, rfl, rfl⟩

theorem readExactLoop_ahead : ∀ (k need : Nat), need = k → ∀ acc, Ahead (readExactLoop need acc) := by
  intro k
  induction k using Nat.strongRecOn with
  | _ k ih =>
  intro need hk acc
  rw [readExactLoop]
  refine Ahead.ite Ahead.pure (Ahead.bind (readOnce_ahead _) fun b => ?_)
  by_cases hb : b.length = 0
  · rw [if_pos hb]; exact Ahead.fail
  · rw [if_neg hb]
    by_cases hn : need = 0
    · subst hn
      rw [Nat.zero_sub, readExactLoop, if_pos rfl]
      exact Ahead.pure
    · exact ih _ (by omega) _ rfl _

theorem readUpToLoop_ahead : ∀ (k need : Nat), need = k → ∀ acc, Ahead (readUpToLoop need acc) := by
  intro k
  induction k using Nat.strongRecOn with
  | _ k ih =>
  intro need hk acc
  rw [readUpToLoop]
  refine Ahead.ite Ahead.pure (Ahead.bind (readOnce_ahead _) fun b => ?_)
  by_cases hb : b.length = 0
  · rw [if_pos hb]; exact Ahead.pure
  · rw [if_neg hb]
    by_cases hn : need = 0
    · subst hn
      rw [Nat.zero_sub, readUpToLoop, if_pos rfl]
      exact Ahead.pure
    · exact ih _ (by omega) _ rfl _

theorem readExact_ahead (n : Nat) : Ahead (readExact n) := readExactLoop_ahead _ _ rfl _
theorem readBytes_ahead (n : Nat) : Ahead (readBytes n) := readUpToLoop_ahead _ _ rfl _

theorem lfh_ahead (b : Build) : Ahead (lfh b) :=
  Ahead.bind (readExact_ahead _) fun _ => Ahead.ite
    (Ahead.bind (Ahead.bind (readExact_ahead _) fun _ => Ahead.pure) fun _ => Ahead.bind (readBytes_ahead _) fun _ =>
      Ahead.bind Ahead.lift fun _ => Ahead.bind (readBytes_ahead _) fun _ => Ahead.bind Ahead.lift fun _ =>
        Ahead.ite Ahead.fail (Ahead.ite Ahead.fail Ahead.pure))
    (Ahead.ite Ahead.pure Ahead.fail)

theorem consumeDataDescriptor_ahead : Ahead consumeDataDescriptor :=
  Ahead.bind (readExact_ahead _) fun _ => Ahead.ite (Ahead.bind (readExact_ahead _) fun _ => Ahead.pure) Ahead.pure

theorem awaitSched_ahead (n : Nat) : ∀ (rs : List RdResp) (s t : RState), SameAhead s t → ∃ r s' t',
    awaitSched n s rs = (r, s') ∧ awaitSched n t rs = (r, t') ∧ SameAhead s' t' ∧ s'.pos = s.pos ∧ t'.pos = t.pos
  | [], _, _, h => ⟨_, _, _, rfl, rfl, ⟨h.bytes, rfl⟩, rfl, rfl⟩
  | .pending :: rs, s, t, h => awaitSched_ahead n rs s t h
  | .error _ :: _, _, _, h => ⟨_, _, _, rfl, rfl, ⟨h.bytes, rfl⟩, rfl, rfl⟩
  | .chunk _ :: _, _, _, h => ⟨_, _, _, rfl, rfl, ⟨h.bytes, rfl⟩, rfl, rfl⟩

theorem awaitChunk_ahead (n : Nat) {s t : RState} (h : SameAhead s t) : ∃ r s' t',
    awaitChunk n s = (r, s') ∧ awaitChunk n t = (r, t') ∧ SameAhead s' t' ∧ s'.pos = s.pos ∧ t'.pos = t.pos := by
  unfold awaitChunk
  rw [← h.answers]
  cases hs : s.sched with
  | some rs => exact awaitSched_ahead n rs s t h
  | none => exact ⟨_, _, _, rfl, rfl, h, rfl, rfl⟩

theorem run_ahead (C : Codec) (er : EntryReader) {s t : RState} (h : SameAhead s t) : er.run C s = er.run C t := by
  unfold EntryReader.run
  rw [h.bytes]

theorem deliver_ahead (er : EntryReader) (d : DecodeResult) (k : Nat) : Ahead (er.deliver d k) := by
  refine Ahead.of fun s t h => ?_
  unfold EntryReader.deliver
  split
  · split
    · exact ⟨_, _, _, d.used, rfl, rfl, ⟨drop_ahead h.bytes, h.answers⟩, rfl, rfl⟩
    · exact ⟨_, _, _, 0, rfl, rfl, h, rfl, rfl⟩
  · exact ⟨_, _, _, 0, rfl, rfl, h, rfl, rfl⟩

theorem read_ahead (C : Codec) (er : EntryReader) (n : Nat) : Ahead (er.read C n) := by
  refine Ahead.of fun s t h => ?_
  unfold EntryReader.read
  split
  · split
    · exact ⟨_, _, _, 0, rfl, rfl, h, rfl, rfl⟩
    · obtain ⟨r, s1, t1, k, h1, h2, h3, h4, h5⟩ := (readOnce_ahead (min n er.limit)).out h
      rw [h1, h2]
      cases r with
      | error e => exact ⟨_, _, _, k, rfl, rfl, h3, h4, h5⟩
      | ok a => exact ⟨_, _, _, k, rfl, rfl, h3, h4, h5⟩
  · split
    · exact ⟨_, _, _, 0, rfl, rfl, h, rfl, rfl⟩
    · obtain ⟨r, s1, t1, h1, h2, h3, h4, h5⟩ := awaitChunk_ahead n h
      rw [h1, h2]
      cases r with
      | error e => exact ⟨_, _, _, 0, rfl, rfl, h3, h4, h5⟩
      | ok a =>
        simp only [← run_ahead C er h]
        rw [← h4, ← h5]
        exact (deliver_ahead er (er.run C s) a).out h3

theorem readLoop_err {C : Codec} {chunk : Nat} {er : EntryReader} {acc : Bytes} {s s' : RState} {e : Fail}
    (h : er.read C chunk s = (.error e, s')) : er.readLoop C chunk acc s = (.error e, s') := by
  rw [EntryReader.readLoop]
  split
  · rename_i h'; rw [h] at h'; cases h'
  · rename_i h'; rw [h] at h'; cases h'; rfl

theorem readLoop_ahead (C : Codec) (chunk : Nat) : ∀ (m : Nat) (er : EntryReader) (acc : Bytes) (s t : RState),
    er.remaining C s = m → SameAhead s t → ∃ r s' t' k, er.readLoop C chunk acc s = (r, s') ∧
      er.readLoop C chunk acc t = (r, t') ∧ SameAhead s' t' ∧ s'.pos = s.pos + k ∧ t'.pos = t.pos + k := by
  intro m
  induction m using Nat.strongRecOn with
  | _ m ih =>
  intro er acc s t hm h
  obtain ⟨r, s1, t1, k, h1, h2, h3, h4, h5⟩ := (read_ahead C er chunk).out h
  cases r with
  | error e => exact ⟨_, s1, t1, k, readLoop_err h1, readLoop_err h2, h3, h4, h5⟩
  | ok x =>
    obtain ⟨b, er'⟩ := x
    by_cases hb : b = []
    · subst hb
      exact ⟨_, s1, t1, k, readLoop_stop h1, readLoop_stop h2, h3, h4, h5⟩
    · obtain ⟨r, s2, t2, k', g1, g2, g3, g4, g5⟩ :=
        ih _ (hm ▸ EntryReader.read_remaining_lt h1 hb) er' (acc ++ b) s1 t1 rfl h3
      exact ⟨r, s2, t2, k + k', (readLoop_step h1 hb).trans g1, (readLoop_step h2 hb).trans g2, g3, by omega, by omega⟩

theorem readToEnd_ahead (C : Codec) (chunk : Nat) (er : EntryReader) : Ahead (er.readToEnd C chunk) :=
  Ahead.of fun s t h => readLoop_ahead C chunk _ er [] s t rfl h

theorem readUpTo_ahead (C : Codec) (chunk : Nat) : ∀ (fuel n : Nat) (er : EntryReader), Ahead (Spec.readUpTo C chunk fuel n er)
  | 0, _, _ => Ahead.pure
  | fuel + 1, _, _ => Ahead.ite Ahead.pure (Ahead.bind (read_ahead _ _ _) fun _ =>
      Ahead.ite Ahead.pure (Ahead.bind (readUpTo_ahead C chunk fuel _ _) fun _ => Ahead.pure))

theorem consume_ahead (C : Codec) (er : EntryReader) (crc : UInt32) (v : Visit) : Ahead (consume C er crc v) := by
  cases v with
  | skip => exact Ahead.bind (readToEnd_ahead _ _ _) fun _ => Ahead.pure
  | read k =>
    exact Ahead.bind (readToEnd_ahead _ _ _) fun _ => Ahead.bind (read_ahead _ _ _) fun _ => Ahead.ite Ahead.fail Ahead.pure
  | check k =>
    exact Ahead.bind (Ahead.bind (readToEnd_ahead _ _ _) fun _ => Ahead.ite Ahead.pure Ahead.fail) fun _ =>
      Ahead.bind (read_ahead _ _ _) fun _ => Ahead.ite Ahead.fail Ahead.pure
  | part n k => exact Ahead.bind (readUpTo_ahead _ _ _ _ _) fun _ => Ahead.bind (readToEnd_ahead _ _ _) fun _ => Ahead.pure

theorem visit_ahead (C : Codec) (b : Build) (v : Visit) : Ahead (visit C b v) := by
  rw [visit_eq]
  refine Ahead.bind (lfh_ahead b) fun e => ?_
  cases e with
  | none => exact Ahead.pure
  | some e =>
    exact Ahead.bind (consume_ahead _ _ _ _) fun _ => Ahead.bind (Ahead.ite consumeDataDescriptor_ahead Ahead.pure) fun _ =>
      Ahead.pure

theorem visits_ahead (C : Codec) (b : Build) : ∀ vs : List Visit, Ahead (visits C b vs)
  | [] => Ahead.pure
  | v :: vs => Ahead.bind (visit_ahead C b v) fun x => by
    cases x with
    | none => exact Ahead.pure
    | some x => exact Ahead.bind (visits_ahead C b vs) fun _ => Ahead.pure

/-! ## Up to where the client gets -/

/-- When `m` succeeds, it depends on the bytes it went over only; and on the length of the file if it went to the end. -/
def Local {α : Type} (m : Rd α) : Prop := ∀ (data data' : Bytes) (pos : Nat) (a : α) (p : Nat), Runs m data pos (.ok a) p →
  p < data.length ∨ data'.length = data.length → (∀ q, pos ≤ q → q < p → data'[q]? = data[q]?) → Runs m data' pos (.ok a) p

theorem take_drop_same {x y : Bytes} {pos k : Nat} (h : ∀ q, pos ≤ q → q < pos + k → y[q]? = x[q]?) :
    (y.drop pos).take k = (x.drop pos).take k := by
  apply List.ext_getElem?
  intro i
  rw [List.getElem?_take, List.getElem?_take, List.getElem?_drop, List.getElem?_drop]
  split
  · exact h _ (by omega) (by omega)
  · rfl

theorem Local.pure {α : Type} {a : α} : Local (Pure.pure a : Rd α) := by
  intro data data' pos a' p h _ _
  obtain ⟨rfl, rfl⟩ := h.inj Runs.pure
  exact Runs.pure

theorem Local.fail {α : Type} {e : Fail} : Local (Rd.fail e : Rd α) :=
  fun _ _ _ _ _ h _ _ => absurd (fun _ => ⟨e, _, rfl⟩) fun h' => h.ok_fails h'

theorem Local.lift {α : Type} {r : Res α} : Local (Rd.lift r) := by
  cases r with
  | ok a => exact Local.pure
  | error e => exact Local.fail

theorem Local.ite {α : Type} {c : Prop} [Decidable c] {m m' : Rd α} (h : Local m) (h' : Local m') :
    Local (if c then m else m') := by
  split <;> assumption

theorem Runs.of_bind {α β : Type} {m : Rd α} {f : α → Rd β} (hm : Cuts m) (hf : ∀ a, Cuts (f a)) {data : Bytes} {pos p : Nat} {c : β}
    (h : Runs (m >>= f) data pos (.ok c) p) :
    ∃ a p1, Runs m data pos (.ok a) p1 ∧ pos ≤ p1 ∧ Runs (f a) data p1 (.ok c) p ∧ p1 ≤ p := by
  rcases hm.total data pos with ⟨a, p1, h1, h2⟩ | h1
  · rcases (hf a).total data p1 with ⟨c', p', h3, h4⟩ | h3
    · obtain ⟨rfl, rfl⟩ := h.inj (h1.bind h3)
      exact ⟨a, p1, h1, h2, h3, h4⟩
    · exact absurd (h1.bind_fails h3) fun h' => h.ok_fails h'
  · exact absurd h1.bind fun h' => h.ok_fails h'

theorem Local.bind {α β : Type} {m : Rd α} {f : α → Rd β} (cm : Cuts m) (cf : ∀ a, Cuts (f a)) (hm : Local m)
    (hf : ∀ a, Local (f a)) : Local (m >>= f) := by
  intro data data' pos c p h hl hs
  obtain ⟨a, p1, h1, h2, h3, h4⟩ := Runs.of_bind cm cf h
  exact (hm data data' pos a p1 h1 (by omega) fun q hq hq' => hs q hq (by omega)).bind
    (hf a data data' p1 c p h3 hl fun q hq hq' => hs q (by omega) hq')

theorem readExact_local (k : Nat) : Local (readExact k) := by
  intro data data' pos a p h hl hs
  by_cases hk : (data.drop pos).length < k
  · exact absurd (readExact_fails hk) fun h' => h.ok_fails h'
  obtain ⟨rfl, rfl⟩ := h.inj (Runs.readExact rfl (by rw [List.length_take]; omega))
  exact Runs.readExact (take_drop_same hs) (by rw [List.length_take]; omega)

theorem readBytes_same {data data' : Bytes} {pos k : Nat}
    (hl : pos + ((data.drop pos).take k).length < data.length ∨ data'.length = data.length)
    (hs : ∀ q, pos ≤ q → q < pos + ((data.drop pos).take k).length → data'[q]? = data[q]?) :
    (data'.drop pos).take k = (data.drop pos).take k := by
  rw [List.length_take, List.length_drop] at hl hs
  refine take_drop_same fun q hq hq' => ?_
  by_cases h : q < pos + min k (data.length - pos)
  · exact hs q hq h
  · rw [List.getElem?_eq_none (by omega : data.length ≤ q), List.getElem?_eq_none (by omega)]

theorem readBytes_local (k : Nat) : Local (readBytes k) := by
  intro data data' pos a p h hl hs
  obtain ⟨rfl, rfl⟩ := h.inj (Runs.readBytes rfl)
  exact Runs.readBytes (readBytes_same hl hs)

theorem lfh_local (b : Build) : Local (lfh b) :=
  Local.bind (readExact_cuts _) (fun _ => Cuts.ite
      (Cuts.bind (Cuts.bind (readExact_cuts _) fun _ _ => Cuts.pure) fun _ _ => Cuts.bind (readBytes_cuts _) fun _ _ =>
        Cuts.bind Cuts.lift fun _ _ => Cuts.bind (readBytes_cuts _) fun _ _ => Cuts.bind Cuts.lift fun _ _ =>
          Cuts.ite Cuts.fail (Cuts.ite Cuts.fail Cuts.pure))
      (Cuts.ite Cuts.pure Cuts.fail))
    (readExact_local _) fun _ => Local.ite
      (Local.bind (Cuts.bind (readExact_cuts _) fun _ _ => Cuts.pure) (fun _ => Cuts.bind (readBytes_cuts _) fun _ _ =>
          Cuts.bind Cuts.lift fun _ _ => Cuts.bind (readBytes_cuts _) fun _ _ => Cuts.bind Cuts.lift fun _ _ =>
            Cuts.ite Cuts.fail (Cuts.ite Cuts.fail Cuts.pure))
        (Local.bind (readExact_cuts _) (fun _ => Cuts.pure) (readExact_local _) fun _ => Local.pure) fun _ =>
        Local.bind (readBytes_cuts _) (fun _ => Cuts.bind Cuts.lift fun _ _ => Cuts.bind (readBytes_cuts _) fun _ _ =>
            Cuts.bind Cuts.lift fun _ _ => Cuts.ite Cuts.fail (Cuts.ite Cuts.fail Cuts.pure))
          (readBytes_local _) fun _ =>
          Local.bind Cuts.lift (fun _ => Cuts.bind (readBytes_cuts _) fun _ _ => Cuts.bind Cuts.lift fun _ _ =>
              Cuts.ite Cuts.fail (Cuts.ite Cuts.fail Cuts.pure))
            Local.lift fun _ =>
            Local.bind (readBytes_cuts _) (fun _ => Cuts.bind Cuts.lift fun _ _ =>
                Cuts.ite Cuts.fail (Cuts.ite Cuts.fail Cuts.pure))
              (readBytes_local _) fun _ =>
              Local.bind Cuts.lift (fun _ => Cuts.ite Cuts.fail (Cuts.ite Cuts.fail Cuts.pure)) Local.lift fun _ =>
                Local.ite Local.fail (Local.ite Local.fail Local.pure))
      (Local.ite Local.pure Local.fail)

theorem descriptor_local (dd : Bool) : Local (if dd then consumeDataDescriptor else pure ()) :=
  Local.ite (Local.bind (readExact_cuts _) (fun _ => Cuts.ite (Cuts.bind (readExact_cuts _) fun _ _ => Cuts.pure) Cuts.pure)
      (readExact_local _) fun _ => Local.ite (Local.bind (readExact_cuts _) (fun _ => Cuts.pure) (readExact_local _) fun _ =>
        Local.pure) Local.pure)
    Local.pure

theorem entryData_local {C : Codec} (hC : FrontToBack C) {m : Compression} {data data' : Bytes} {pos len : Nat}
    (hok : (entryData C m data pos len).ok = true)
    (hl : pos + (entryData C m data pos len).used < data.length ∨ data'.length = data.length)
    (hs : ∀ q, pos ≤ q → q < pos + (entryData C m data pos len).used → data'[q]? = data[q]?) :
    entryData C m data' pos len = entryData C m data pos len := by
  unfold entryData at *
  by_cases hm : m = .stored
  · simp only [if_pos hm] at *
    have : window data' pos len = window data pos len := readBytes_same hl hs
    rw [this]
  · simp only [if_neg hm] at *
    obtain ⟨h1, h2⟩ := hC m _ hok
    apply h2
    unfold window
    rw [List.take_take, List.take_take]
    exact take_drop_same fun q hq hq' => hs q hq (by
      have := Nat.min_le_left (C.decode m (window data pos len)).used len
      unfold window at this ⊢
      omega)

theorem consume_local {C : Codec} (hC : FrontToBack C) {m : Compression} {len : Nat} {crc : UInt32} {v : Visit} (hv : v.Buffered) :
    Local (consume C (EntryReader.new m len) crc v) := by
  intro data data' pos a p h hl hs
  by_cases hf : (entryData C m data pos len).ok = false ∨ Refuses v crc (entryData C m data pos len).out
  · exact absurd (fun log => consume_fails (s := ⟨data, pos, none, log⟩) hv hf) fun h' => h.ok_fails h'
  rw [not_or, Bool.not_eq_false] at hf
  obtain ⟨rfl, rfl⟩ := h.inj (consume_runs hv hf.1 hf.2)
  have e := entryData_local hC hf.1 hl hs
  have := consume_runs (crc := crc) hv (e ▸ hf.1) (e ▸ hf.2)
  rwa [e] at this

theorem visitOf_cuts {C : Codec} (hC : FrontToBack C) {v : Visit} (hv : v.Buffered) (e : ZipEntry) : Cuts (visitOf C v e) :=
  Cuts.bind (consume_cuts hC hv) fun _ _ => Cuts.bind (descriptor_cuts _) fun _ _ => Cuts.pure

theorem visitOf_local {C : Codec} (hC : FrontToBack C) {v : Visit} (hv : v.Buffered) (e : ZipEntry) : Local (visitOf C v e) :=
  Local.bind (consume_cuts hC hv) (fun _ => Cuts.bind (descriptor_cuts _) fun _ _ => Cuts.pure) (consume_local hC hv) fun _ =>
    Local.bind (descriptor_cuts _) (fun _ => Cuts.pure) (descriptor_local _) fun _ => Local.pure

theorem visit_local {C : Codec} (hC : FrontToBack C) (b : Build) {v : Visit} (hv : v.Buffered) : Local (visit C b v) := by
  rw [visit_eq]
  refine Local.bind (lfh_cuts b) (fun e => ?_) (lfh_local b) fun e => ?_
  · cases e with
    | none => exact Cuts.pure
    | some e => exact visitOf_cuts hC hv e
  · cases e with
    | none => exact Local.pure
    | some e => exact visitOf_local hC hv e

theorem visits_local {C : Codec} (hC : FrontToBack C) (b : Build) : ∀ (vs : List Visit), (∀ v ∈ vs, v.Buffered) →
    Local (visits C b vs)
  | [], _ => Local.pure
  | v :: vs, hv => by
    have ih := visits_local hC b vs fun v h => hv v (List.mem_cons_of_mem _ h)
    have ic := visits_total hC b vs fun v h => hv v (List.mem_cons_of_mem _ h)
    refine Local.bind (visit_cuts hC b (hv v List.mem_cons_self)) (fun x => ?_) (visit_local hC b (hv v List.mem_cons_self))
      fun x => ?_
    · cases x with
      | none => exact Cuts.pure
      | some x => exact Cuts.bind ic fun _ _ => Cuts.pure
    · cases x with
      | none => exact Local.pure
      | some x => exact Local.bind ic (fun _ => Cuts.pure) ih fun _ => Local.pure

end AsyncZip
