import Verif.Proofs.Own
import Verif.Props.Reading
/-!
# C51: an entry is read from its own bytes only
-/

namespace AsyncZip
open Spec Rd

/-- C51. Two archives that agree on the declared data of every entry that is opened, and on the signature and the two lengths
in its local header, cannot be told apart by any sequence of calls on a seekable reader, however the source behaves. The
listing need not be that of either archive. -/
theorem C51_seekable (C : Codec) (f : ZipFile) (calls : List Call) (a b : Bytes) (pos : Nat) (sched : Option (List RdResp))
    (h : ∀ i, .open i ∈ calls → ∀ e, f.entries[i]? = some e → SameData a b e) :
    (seekSession C f calls (none, ⟨a, pos, sched, []⟩)).1 = (seekSession C f calls (none, ⟨b, pos, sched, []⟩)).1 :=
  (seekSession_on calls (st := (none, ⟨a, pos, sched, []⟩)) h (fun _ h => by cases h)).symm

/-- The calls a user of a shared reader opens an entry with. -/
def Opens (i : Nat) (c : SharedCall) : Prop := c.call = .open i

/-- C51. The same for any interleaving of users of a shared reader. -/
theorem C51_shared (C : Codec) (f : ZipFile) (calls : List SharedCall) (a b : Bytes)
    (h : ∀ i, ∀ c ∈ calls, Opens i c → ∀ e, f.entries[i]? = some e → SameData a b e) :
    sharedRun C a f calls World.empty = sharedRun C b f calls World.empty := by
  suffices H : ∀ (calls : List SharedCall) (w w' : World),
      (∀ i, ∀ c ∈ calls, Opens i c → ∀ e, f.entries[i]? = some e → SameData a b e) →
      (∀ u, w' u = (w u).map fun x => (x.1, x.2.on b)) →
      (∀ u er s, w u = some (er, s) → Agrees er s b) →
      sharedRun C a f calls w = sharedRun C b f calls w' by
    exact H calls _ _ h (fun _ => rfl) (fun _ _ _ h => by cases h)
  intro calls
  induction calls with
  | nil => intro w w' _ _ _; rfl
  | cons c cs ih =>
    intro w w' hc hw ha
    suffices H : (sharedCall C a f c w).1 = (sharedCall C b f c w').1 ∧
        (∀ u, (sharedCall C b f c w').2 u = ((sharedCall C a f c w).2 u).map fun x => (x.1, x.2.on b)) ∧
        (∀ u er s, (sharedCall C a f c w).2 u = some (er, s) → Agrees er s b) by
      obtain ⟨h1, h2, h3⟩ := H
      show (c.user, (sharedCall C a f c w).1) :: _ = (c.user, (sharedCall C b f c w').1) :: _
      rw [h1]
      congr 1
      exact ih _ _ (fun i x hx => hc i x (List.mem_cons_of_mem _ hx)) h2 h3
    have clear : ∀ u, (w'.set c.user none) u = ((w.set c.user none) u).map fun x => (x.1, x.2.on b) := by
      intro u
      unfold World.set
      split
      · rfl
      · exact hw u
    have clear' : ∀ u er s, (w.set c.user none) u = some (er, s) → Agrees er s b := by
      intro u er s h
      unfold World.set at h
      split at h
      · cases h
      · exact ha u er s h
    have put : ∀ er s u, (w'.set c.user (some (er, s.on b))) u = ((w.set c.user (some (er, s))) u).map fun x => (x.1, x.2.on b) := by
      intro er s u
      unfold World.set
      split
      · rfl
      · exact hw u
    have put' : ∀ er s, Agrees er s b → ∀ u er' s', (w.set c.user (some (er, s))) u = some (er', s') → Agrees er' s' b := by
      intro er s h0 u er' s' h
      unfold World.set at h
      split at h
      · cases h; exact h0
      · exact ha u er' s' h
    have reading : ∀ call : Call, (useReader C call c.user w).1 = (useReader C call c.user w').1 ∧
        (∀ u, (useReader C call c.user w').2 u = ((useReader C call c.user w).2 u).map fun x => (x.1, x.2.on b)) ∧
        (∀ u er s, (useReader C call c.user w).2 u = some (er, s) → Agrees er s b) := by
      intro call
      unfold useReader
      rw [hw c.user]
      cases hx : w c.user with
      | none => exact ⟨rfl, hw, ha⟩
      | some x =>
        obtain ⟨er, s⟩ := x
        have := callReader_on (C := C) (c := call) (ha _ er s hx)
        simp only [Option.map_some]
        rw [this.1]
        obtain ⟨-, hag⟩ := this
        generalize callReader C er call s = x at *
        obtain ⟨seen, o, s'⟩ := x
        cases o with
        | none => exact ⟨rfl, clear, clear'⟩
        | some er => exact ⟨rfl, put _ _, put' _ _ (hag er rfl)⟩
    unfold sharedCall
    cases hcall : c.call with
    | «open» i =>
      simp only []
      split
      · exact ⟨rfl, clear, clear'⟩
      · split
        · exact ⟨rfl, clear, clear'⟩
        · have := callOpen_on (f := f) (i := i) (s := ⟨a, 0, c.sched, []⟩) (b := b) fun e he => hc i c List.mem_cons_self hcall e he
          rw [show callOpen f i ⟨b, 0, c.sched, []⟩ = _ from this.1]
          obtain ⟨-, hag⟩ := this
          generalize callOpen f i ⟨a, 0, c.sched, []⟩ = x at *
          obtain ⟨seen, o, s'⟩ := x
          cases o with
          | none => exact ⟨rfl, clear, clear'⟩
          | some er => exact ⟨rfl, put _ _, put' _ _ (hag er rfl)⟩
    | read n => exact reading (.read n)
    | readToEnd n => exact reading (.readToEnd n)
    | computeHash => exact reading (.computeHash)

/-- C51 on a real archive: everything after the only entry of `Samples.one` (its directory, say) may be overwritten. -/
example (C : Codec) (calls : List Call) (sched : Option (List RdResp)) (x : Bytes) :
    (seekSession C Samples.oneFile calls (none, ⟨Samples.one, 0, sched, []⟩)).1
      = (seekSession C Samples.oneFile calls (none, ⟨Samples.one.take 43 ++ x, 0, sched, []⟩)).1 := by
  refine C51_seekable C _ calls _ _ 0 sched fun i _ e he => ?_
  obtain rfl : Samples.oneFile.entries[0] = e := by
    cases i with
    | zero => exact Option.some.inj he
    | succ i => cases he
  refine SameRegion.same ?_
  show window _ 0 _ = window _ 0 _
  simp only [show Samples.oneFile.entries[0].fileOffset = 0 from rfl,
    show 30 + fieldAt Samples.one (0 + 26) 2 + fieldAt Samples.one (0 + 28) 2 +
      Samples.oneFile.entries[0].entry.compressedSize.toNat = 43 by decide +kernel, window, List.drop_zero]
  rw [List.take_append_of_le_length (by decide), List.take_take, Nat.min_self]

/-- C51, the other way: the rest of the local header and the name in it may be overwritten. -/
example (C : Codec) (calls : List Call) (sched : Option (List RdResp)) :
    (seekSession C Samples.oneFile calls (none, ⟨Samples.one, 0, sched, []⟩)).1
      = (seekSession C Samples.oneFile calls (none, ⟨Samples.one.take 4 ++ (List.replicate 22 255 ++ ((Samples.one.drop 26).take 4 ++
          (255 :: Samples.one.drop 31))), 0, sched, []⟩)).1 := by
  refine C51_seekable C _ calls _ _ 0 sched fun i _ e he => ?_
  obtain rfl : Samples.oneFile.entries[0] = e := by
    cases i with
    | zero => exact Option.some.inj he
    | succ i => cases he
  exact ⟨by decide +kernel, by decide +kernel, by decide +kernel, by decide +kernel⟩

end AsyncZip
