import Verif.Spec.InnerReader
import Verif.Props.Own
/-!
# C108: using the source of a seekable reader
-/

namespace AsyncZip
open Spec Rd

/-- How a session with uses of the source stands to one without. -/
structure Beside (f : ZipFile) (d : Bytes) (is : Nat → Prop) (o : Bool) (a p : Option EntryReader × RState) : Prop where
  plain : p.2.data = d
  sched : a.2.sched = p.2.sched
  data : ∀ i, is i → ∀ e, f.entries[i]? = some e → SameData d a.2.data e
  same : o = true → SameFuture a (onState p a.2.data) ∧ ∀ er, p.1 = some er → AsyncZip.Agrees er p.2 a.2.data

theorem Beside.opened {C : Codec} {f : ZipFile} {d : Bytes} {is : Nat → Prop} {o : Bool} {a p : Option EntryReader × RState}
    (h : Beside f d is o a p) {i : Nat} (hi : is i) :
    (seekCall C f (.open i) a).1 = (seekCall C f (.open i) p).1 ∧
      Beside f d is true (seekCall C f (.open i) a).2 (seekCall C f (.open i) p).2 := by
  have hda := seekCall_data C f (.open i) a
  have hdp := seekCall_data C f (.open i) p
  obtain ⟨h1, h2, h3, -⟩ := h
  obtain ⟨x, d', q, sc, l⟩ := a
  obtain ⟨y, d'', q', sc', l'⟩ := p
  simp only at h1 h2 h3
  subst h1 h2
  obtain ⟨g1, g2⟩ := callOpen_same f i d' q q' sc l l'
  obtain ⟨k1, k2⟩ := callOpen_on (f := f) (i := i) (s := ⟨d'', q', sc, l'⟩) (b := d') (h3 i hi)
  rw [show callOpen f i ⟨d', q', sc, l'⟩ = _ from k1] at g1 g2
  refine ⟨g1, hdp, g2.2.2.1, ?_, fun _ => ?_⟩
  · rw [hda]; exact h3
  · rw [hda]; exact ⟨g2, k2⟩

theorem Beside.used {C : Codec} {f : ZipFile} {d : Bytes} {is : Nat → Prop} {a p : Option EntryReader × RState}
    (h : Beside f d is true a p) {c : Call} (hc : ∀ i, c ≠ .open i) :
    (seekCall C f c a).1 = (seekCall C f c p).1 ∧ Beside f d is true (seekCall C f c a).2 (seekCall C f c p).2 := by
  have hda := seekCall_data C f c a
  have hdp := seekCall_data C f c p
  obtain ⟨h1, h2, h3, h4⟩ := h
  obtain ⟨h4, h5⟩ := h4 rfl
  obtain ⟨g1, g2⟩ := seekCall_same C f c _ _ h4
  have key : seekCall C f c (onState p a.2.data) = ((seekCall C f c p).1, onState (seekCall C f c p).2 a.2.data) ∧
      ∀ er, (seekCall C f c p).2.1 = some er → AsyncZip.Agrees er (seekCall C f c p).2.2 a.2.data := by
    obtain ⟨y, s⟩ := p
    cases y with
    | none =>
      cases c with
      | «open» i => exact absurd rfl (hc i)
      | read n => exact ⟨rfl, fun _ h => by cases h⟩
      | readToEnd n => exact ⟨rfl, fun _ h => by cases h⟩
      | computeHash => exact ⟨rfl, fun _ h => by cases h⟩
    | some er =>
      cases c with
      | «open» i => exact absurd rfl (hc i)
      | read n => exact callReader_on (C := C) (c := (.read n)) (s := s) (h5 er rfl)
      | readToEnd n => exact callReader_on (C := C) (c := (.readToEnd n)) (s := s) (h5 er rfl)
      | computeHash => exact callReader_on (C := C) (c := .computeHash) (s := s) (h5 er rfl)
  rw [key.1] at g1 g2
  refine ⟨g1, hdp.trans h1, g2.2.2.1, ?_, fun _ => ?_⟩
  · rw [hda]; exact h3
  · rw [hda]; exact ⟨g2, key.2⟩

/-- C108. Whatever a client does to the source between entries, as long as the source still agrees with what it was where the entries are
that are opened: the calls show what they show without. -/
theorem C108_unnoticed (C : Codec) (f : ZipFile) (cs : List InnerCall) (s : RState) (hb : Borrowed false cs)
    (h : ∀ g, .inner g ∈ cs → HarmlessUse f s.data cs g) :
    innerSession C f cs (none, s) = (seekSession C f (callsOnly cs) (none, s)).1 := by
  suffices H : ∀ (ds : List InnerCall) (o : Bool) (a p : Option EntryReader × RState), (∀ c ∈ ds, c ∈ cs) → Borrowed o ds →
      Beside f s.data (fun i => .call (.open i) ∈ cs) o a p → innerSession C f ds a = (seekSession C f (callsOnly ds) p).1 from
    H cs false _ _ (fun _ h => h) hb ⟨rfl, rfl, fun _ _ _ _ => ⟨rfl, rfl, rfl, rfl⟩, fun h => by cases h⟩
  intro ds
  induction ds with
  | nil => intro _ _ _ _ _ _; rfl
  | cons c ds ih =>
    intro o a p hm hb hs
    have hm' : ∀ c ∈ ds, c ∈ cs := fun c hc => hm c (List.mem_cons_of_mem _ hc)
    have step : ∀ c : Call, (seekCall C f c a).1 = (seekCall C f c p).1 ∧
          Beside f s.data (fun i => .call (.open i) ∈ cs) true (seekCall C f c a).2 (seekCall C f c p).2 → Borrowed true ds →
        innerSession C f (.call c :: ds) a = (seekSession C f (callsOnly (.call c :: ds)) p).1 := by
      intro c hc hb
      show (seekCall C f c a).1 :: innerSession C f ds _ = (seekCall C f c p).1 :: _
      rw [hc.1]
      exact congrArg _ (ih true _ _ hm' hb hc.2)
    cases c with
    | inner g =>
      have hg := h g (hm _ List.mem_cons_self)
      exact ih false _ p hm' hb ⟨hs.plain, (hg.sched a.2).trans hs.sched, fun i hi e he => hg.data i hi e he a.2, fun h => by cases h⟩
    | call c =>
      cases c with
      | «open» i => exact step _ (hs.opened (hm _ List.mem_cons_self)) hb
      | read n => cases hb.1; exact step _ (hs.used fun _ h => by cases h) hb.2
      | readToEnd n => cases hb.1; exact step _ (hs.used fun _ h => by cases h) hb.2
      | computeHash => cases hb.1; exact step _ (hs.used fun _ h => by cases h) hb.2

/-- C108. In particular, seeking and reading in the source between entries has no effect on what is read from them. -/
theorem C108_moved (C : Codec) (f : ZipFile) (cs : List InnerCall) (s : RState) (hb : Borrowed false cs)
    (h : ∀ g, .inner g ∈ cs → ∀ s', (g s').sched = s'.sched ∧ (g s').data = s.data) :
    innerSession C f cs (none, s) = (seekSession C f (callsOnly cs) (none, s)).1 :=
  C108_unnoticed C f cs s hb fun g hg =>
    ⟨fun s' => (h g hg s').1, fun _ _ _ _ s' => by rw [(h g hg s').2]; exact ⟨rfl, rfl, rfl, rfl⟩⟩

theorem innerSession_calls (C : Codec) (f : ZipFile) : ∀ (cs : List Call) (st : Option EntryReader × RState),
    innerSession C f (cs.map .call) st = (seekSession C f cs st).1
  | [], _ => rfl
  | _ :: cs, _ => congrArg (List.cons _) (innerSession_calls C f cs _)

theorem innerSession_append (C : Codec) (f : ZipFile) (cs ds : List InnerCall) (st : Option EntryReader × RState) :
    ∃ st', innerSession C f (cs ++ ds) st = innerSession C f cs st ++ innerSession C f ds st' ∧
      ∀ es, innerSession C f (cs ++ es) st = innerSession C f cs st ++ innerSession C f es st' := by
  induction cs generalizing st with
  | nil => exact ⟨st, rfl, fun _ => rfl⟩
  | cons c cs ih =>
    obtain ⟨st', h1, h2⟩ := ih (innerStep C f c st).2
    refine ⟨st', ?_, fun es => ?_⟩
    · simp only [List.cons_append, innerSession, h1, List.append_assoc]
    · simp only [List.cons_append, innerSession, h2 es, List.append_assoc]

/-- C108. Whatever was done before: once the client has left another source in the place, an entry that is opened is read from that, at
the place and with the method and size of the listing, as by a reader new to that source. -/
theorem C108_replaced (C : Codec) (f : ZipFile) (before : List InnerCall) (after : List Call) (i : Nat) (new : RState)
    (st : Option EntryReader × RState) :
    innerSession C f (before ++ .inner (fun _ => new) :: .call (.open i) :: after.map .call) st =
      innerSession C f before st ++ (seekSession C f (.open i :: after) (none, ⟨new.data, 0, new.sched, []⟩)).1 := by
  obtain ⟨st', h, -⟩ := innerSession_append C f before (.inner (fun _ => new) :: .call (.open i) :: after.map .call) st
  rw [h]
  refine congrArg _ ?_
  show innerSession C f ((Call.open i :: after).map .call) (none, new) = _
  rw [innerSession_calls]
  exact C25_history_independent C f [] after i (none, new)

/-- C108, moved: the client goes anywhere in the source after having read a byte of an entry, opens it again, and goes elsewhere. -/
example (C : Codec) (p q : Nat) (s : RState) :
    innerSession C Samples.oneFile [.call (.open 0), .call (.read 1), .inner fun s' => { s with pos := p, sched := s'.sched },
      .call (.open 0), .call (.read 9), .inner fun s' => { s with pos := q, sched := s'.sched }] (none, s) =
      (seekSession C Samples.oneFile [.open 0, .read 1, .open 0, .read 9] (none, s)).1 := by
  refine C108_moved C Samples.oneFile _ s ⟨rfl, rfl, trivial⟩ fun g hg s' => ?_
  simp only [List.mem_cons, reduceCtorEq, InnerCall.inner.injEq, List.not_mem_nil, or_false, false_or] at hg
  rcases hg with rfl | rfl
  · exact ⟨rfl, rfl⟩
  · exact ⟨rfl, rfl⟩

/-- C108, unnoticed: the client replaces everything after the entry, before it is read. -/
example (C : Codec) (x : Bytes) (n : Nat) :
    innerSession C Samples.oneFile [.inner fun s => { s with data := Samples.one.take 43 ++ x }, .call (.open 0), .call (.readToEnd n)]
      (none, ⟨Samples.one, 0, none, []⟩) =
      (seekSession C Samples.oneFile [.open 0, .readToEnd n] (none, ⟨Samples.one, 0, none, []⟩)).1 := by
  refine C108_unnoticed C Samples.oneFile _ _ ⟨rfl, trivial⟩ fun g hg => ?_
  simp only [List.mem_cons, reduceCtorEq, InnerCall.inner.injEq, List.not_mem_nil, or_false] at hg
  subst hg
  refine ⟨fun _ => rfl, fun i hi e he s => SameRegion.same ?_⟩
  simp only [List.mem_cons, reduceCtorEq, InnerCall.call.injEq, Call.open.injEq, List.not_mem_nil, or_false, false_or] at hi
  subst hi
  obtain rfl : Samples.oneFile.entries[0] = e := Option.some.inj he
  show window _ 0 _ = window _ 0 _
  simp only [show Samples.oneFile.entries[0].fileOffset = 0 from rfl,
    show 30 + fieldAt Samples.one (0 + 26) 2 + fieldAt Samples.one (0 + 28) 2 +
      Samples.oneFile.entries[0].entry.compressedSize.toNat = 43 by decide +kernel, window, List.drop_zero]
  rw [List.take_append_of_le_length (by decide), List.take_take, Nat.min_self]

/-- C108, replaced: another source, after the first byte. -/
example : innerSession Samples.lengthCodec Samples.oneFile [.call (.open 0), .call (.read 1),
      .inner fun _ => ⟨Samples.one.take 41 ++ [7, 8], 5, none, []⟩, .call (.open 0), .call (.read 9)] (none, ⟨Samples.one, 0, none, []⟩) =
    [.opened Samples.oneFile.entries[0].entry, .bytes [104], .opened Samples.oneFile.entries[0].entry, .bytes [7, 8]] := by
  refine (C108_replaced Samples.lengthCodec Samples.oneFile [.call (.open 0), .call (.read 1)] [.read 9] 0
    ⟨Samples.one.take 41 ++ [7, 8], 5, none, []⟩ (none, ⟨Samples.one, 0, none, []⟩)).trans ?_
  decide +kernel

end AsyncZip
