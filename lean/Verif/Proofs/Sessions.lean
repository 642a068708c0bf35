import Verif.Model.Sessions
import Verif.Proofs.Access

/-! Sessions of readers: what later calls depend on. -/

namespace AsyncZip
open Rd

/-- Two states of a seekable reader that no further call can tell apart: same data, same future behaviour of the source,
same open entry reader, and if there is one, the same position. -/
def SameFuture (a b : Option EntryReader × RState) : Prop :=
  a.1 = b.1 ∧ a.2.data = b.2.data ∧ a.2.sched = b.2.sched ∧ (a.1 ≠ none → a.2.pos = b.2.pos)

theorem callReader_same (C : Codec) (er : EntryReader) (c : Call) (d : Bytes) (p : Nat) (sc : Option (List RdResp))
    (l l' : List RdEvent) : (callReader C er c ⟨d, p, sc, l⟩).1 = (callReader C er c ⟨d, p, sc, l'⟩).1 ∧
      SameFuture (callReader C er c ⟨d, p, sc, l⟩).2 (callReader C er c ⟨d, p, sc, l'⟩).2 := by
  unfold callReader
  cases c with
  | «open» i => exact ⟨rfl, rfl, rfl, rfl, fun _ => rfl⟩
  | computeHash => exact ⟨rfl, rfl, rfl, rfl, fun _ => rfl⟩
  | read n =>
    have := read_logIndep C er n d p sc l l'
    simp only
    generalize er.read C n ⟨d, p, sc, l⟩ = x at *
    generalize er.read C n ⟨d, p, sc, l'⟩ = y at *
    obtain ⟨r, s⟩ := x
    obtain ⟨r', s'⟩ := y
    simp only at this
    obtain ⟨rfl, h2, h3, h4⟩ := this
    cases r with
    | ok a => exact ⟨rfl, rfl, h2, h4, fun _ => h3⟩
    | error a => exact ⟨rfl, rfl, h2, h4, fun _ => h3⟩
  | readToEnd n =>
    have := readToEnd_logIndep C n er d p sc l l'
    simp only
    rw [readPart_logIndep C n _ er [] d p sc l l' rfl]
    generalize er.readToEnd C n ⟨d, p, sc, l⟩ = x at *
    generalize er.readToEnd C n ⟨d, p, sc, l'⟩ = y at *
    obtain ⟨r, s⟩ := x
    obtain ⟨r', s'⟩ := y
    simp only at this
    obtain ⟨rfl, h2, h3, h4⟩ := this
    cases r with
    | ok a => exact ⟨rfl, rfl, h2, h4, fun _ => h3⟩
    | error a => exact ⟨rfl, rfl, h2, h4, fun _ => h3⟩

theorem callOpen_same (f : ZipFile) (i : Nat) (d : Bytes) (p p' : Nat) (sc : Option (List RdResp))
    (l l' : List RdEvent) : (callOpen f i ⟨d, p, sc, l⟩).1 = (callOpen f i ⟨d, p', sc, l'⟩).1 ∧
      SameFuture (callOpen f i ⟨d, p, sc, l⟩).2 (callOpen f i ⟨d, p', sc, l'⟩).2 := by
  by_cases h : i < f.entries.length
  · have := readerWithEntry_posIndep h d p p' sc l l'
    unfold callOpen
    generalize readerWithEntry f i ⟨d, p, sc, l⟩ = x at *
    generalize readerWithEntry f i ⟨d, p', sc, l'⟩ = y at *
    obtain ⟨r, s⟩ := x
    obtain ⟨r', s'⟩ := y
    simp only at this
    obtain ⟨rfl, h2, h3, h4⟩ := this
    cases r with
    | ok a => exact ⟨rfl, rfl, h2, h3, fun _ => h4 a rfl⟩
    | error a => exact ⟨rfl, rfl, h2, h3, fun h => absurd rfl h⟩
  · unfold callOpen readerWithEntry
    rw [List.getElem?_eq_none (by omega)]
    exact ⟨rfl, rfl, rfl, rfl, fun h => absurd rfl h⟩

theorem seekCall_same (C : Codec) (f : ZipFile) (c : Call) (a b : Option EntryReader × RState) (h : SameFuture a b) :
    (seekCall C f c a).1 = (seekCall C f c b).1 ∧ SameFuture (seekCall C f c a).2 (seekCall C f c b).2 := by
  obtain ⟨x, d, p, sc, l⟩ := a
  obtain ⟨y, d', p', sc', l'⟩ := b
  obtain ⟨h1, h2, h3, h4⟩ := h
  simp only at h1 h2 h3 h4
  subst h1 h2 h3
  unfold seekCall
  cases c with
  | «open» i => exact callOpen_same f i d p p' sc l l'
  | _ =>
    cases x with
    | none => exact ⟨rfl, rfl, rfl, rfl, fun h => absurd rfl h⟩
    | some er =>
      have := h4 (by simp)
      subst this
      exact callReader_same C er _ d p sc l l'

theorem seekSession_same (C : Codec) (f : ZipFile) : ∀ (cs : List Call) (a b : Option EntryReader × RState),
    SameFuture a b → (seekSession C f cs a).1 = (seekSession C f cs b).1 := by
  intro cs
  induction cs with
  | nil => intro a b h; rfl
  | cons c cs ih =>
    intro a b h
    obtain ⟨h1, h2⟩ := seekCall_same C f c a b h
    simp only [seekSession]
    rw [h1, ih _ _ h2]

theorem seekCall_data (C : Codec) (f : ZipFile) (c : Call) (a : Option EntryReader × RState) :
    (seekCall C f c a).2.2.data = a.2.data := by
  obtain ⟨x, s⟩ := a
  have hopen : ∀ i, (callOpen f i s).2.2.data = s.data := by
    intro i
    have := (readerWithEntry_keeps f i s).1
    unfold callOpen
    generalize readerWithEntry f i s = y at *
    obtain ⟨r, s'⟩ := y
    cases r <;> exact this
  have hreader : ∀ er, (callReader C er c s).2.2.data = s.data := by
    intro er
    unfold callReader
    cases c with
    | «open» i => rfl
    | computeHash => rfl
    | read n =>
      simp only
      cases hr : er.read C n s with
      | mk r s' =>
        cases r with
        | ok y => exact (read_ok hr).1
        | error e => exact (read_err hr).1
    | readToEnd n =>
      simp only
      cases hr : er.readToEnd C n s with
      | mk r s' =>
        cases r with
        | ok y =>
          obtain ⟨t, er1, s1, hu, _, _, hl⟩ := readLoop_use _ er [] s rfl _ _ hr
          exact (read_ok hl).1.trans (use_spec hu).1
        | error e => exact (readToEnd_err hr).1
  unfold seekCall
  cases c with
  | «open» i => exact hopen i
  | _ =>
    cases x with
    | none => rfl
    | some er => exact hreader er

theorem seekSession_data (C : Codec) (f : ZipFile) : ∀ (cs : List Call) (a : Option EntryReader × RState),
    (seekSession C f cs a).2.2.data = a.2.data := by
  intro cs
  induction cs with
  | nil => intro a; rfl
  | cons c cs ih => intro a; simp only [seekSession]; rw [ih, seekCall_data]

theorem sharedCall_other (C : Codec) (data : Bytes) (f : ZipFile) (c : SharedCall) (w : World) (u : Nat) (h : u ≠ c.user) :
    (sharedCall C data f c w).2 u = w u := by
  unfold sharedCall
  repeat' split
  all_goals simp [World.set, h]

theorem sharedCall_own (C : Codec) (data : Bytes) (f : ZipFile) (c : SharedCall) (w w' : World) (h : w c.user = w' c.user) :
    (sharedCall C data f c w).1 = (sharedCall C data f c w').1 ∧
      (sharedCall C data f c w).2 c.user = (sharedCall C data f c w').2 c.user := by
  unfold sharedCall
  rw [h]
  repeat' split
  all_goals simp [World.set, h]

end AsyncZip
