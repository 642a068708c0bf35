import Verif.Spec.Independent
import Verif.Proofs.RoundTrip
import Verif.Proofs.Openable
/-!
# What the independent reader accepts, to the library
-/

namespace AsyncZip
open Spec Rd

theorem lastEndBelow_some {data : Bytes} {j : Nat} : ∀ {n : Nat}, lastEndBelow data n = some j →
    OccursAt data sigEnd j ∧ j < n ∧ ∀ j', OccursAt data sigEnd j' → j' < n → j' ≤ j := by
  intro n
  induction n with
  | zero => intro h; cases h
  | succ n ih =>
    intro h
    unfold lastEndBelow at h
    by_cases he : OccursAt data sigEnd n
    · rw [if_pos he] at h
      cases h
      exact ⟨he, Nat.lt_succ_self _, fun j' _ h => by omega⟩
    · rw [if_neg he] at h
      obtain ⟨h1, h2, h3⟩ := ih h
      refine ⟨h1, by omega, fun j' hj hlt => h3 j' hj ?_⟩
      have : j' ≠ n := by rintro rfl; exact he hj
      omega

theorem lastEnd_of_some {data : Bytes} {j : Nat} (h : lastEndBelow data data.length = some j) : LastEnd data j := by
  obtain ⟨h1, _, h3⟩ := lastEndBelow_some h
  refine ⟨h1, fun j' hj => h3 j' hj ?_⟩
  have := congrArg List.length hj
  rw [List.length_take, List.length_drop, show sigEnd.length = 4 from rfl] at this
  omega

theorem blocksOf_some : ∀ {n : Nat} {b : Bytes} {rs : List (Nat × Bytes)}, blocksOf n b = some rs → Blocks b rs [] := by
  intro n
  induction n with
  | zero =>
    intro b rs h
    cases b with
    | nil => cases h; exact .nil _
    | cons x xs => cases h
  | succ n ih =>
    intro b rs h
    cases b with
    | nil => cases h; exact .nil _
    | cons x xs =>
      unfold blocksOf at h
      split at h
      · rename_i hl
        obtain ⟨q, h1, rfl⟩ := Option.map_eq_some_iff.1 h
        exact .cons _ _ _ hl (ih h1)
      · cases h

/-- However the extra field is cut into blocks, up to four bytes at its end, the ZIP64 content is the same. -/
theorem Blocks.content {x : Bytes} {bl : List (Nat × Bytes)} {tail : Bytes} (h : Blocks x bl tail) :
    tail.length ≤ 4 → ∀ {bl'}, Blocks x bl' [] → zip64Content bl' = zip64Content bl := by
  induction h with
  | nil tail =>
    intro ht bl' h'
    generalize hn : ([] : Bytes) = e at h'
    cases h' with
    | nil => rfl
    | cons _ rs _ hlen hrest =>
      have h0 : fieldAt tail 2 2 = 0 := by omega
      rw [h0, List.drop_of_length_le (by omega)] at hrest
      have : rs = [] := by
        cases hrest with
        | nil => rfl
        | cons _ _ _ hl _ => rw [List.length_nil] at hl; omega
      subst this
      rw [h0, List.take_zero]
      unfold zip64Content
      rw [List.find?_cons]
      cases (fieldAt tail 0 2 == 1) <;> rfl
  | cons b rs tail hlen _ ih =>
    intro ht bl' h'
    generalize hn : ([] : Bytes) = e at h'
    cases h' with
    | nil => subst hn; rw [List.length_nil] at hlen; omega
    | cons _ rs' _ hlen' hrest =>
      subst hn
      have := ih ht hrest
      unfold zip64Content at this ⊢
      rw [List.find?_cons, List.find?_cons]
      cases fieldAt b 0 2 == 1 with
      | true => rfl
      | false => exact this

/-- An accepted entry, off the bytes. -/
structure Accepted (data : Bytes) (j : Nat) (i : Item) (us cs off : Nat) : Prop where
  signature : OccursAt data sigCentral j
  blocks : Blocks (window data (j + 46 + fieldAt data (j + 28) 2) (fieldAt data (j + 30) 2)) i.extra []
  usEq : us = trueValue (fieldAt data (j + 24) 4) (zip64Content i.extra) 0
  csEq : cs = trueValue (fieldAt data (j + 20) 4) (zip64Content i.extra) (room (fieldAt data (j + 24) 4))
  offEq : off = trueValue (fieldAt data (j + 42) 4) (zip64Content i.extra)
    (room (fieldAt data (j + 24) 4) + room (fieldAt data (j + 20) 4))
  header : OccursAt data sigLocal off
  fits : dataStart data off + cs ≤ data.length
  item : i = {
    name := window data (j + 46) (fieldAt data (j + 28) 2)
    comment := window data (j + 46 + fieldAt data (j + 28) 2 + fieldAt data (j + 30) 2) (fieldAt data (j + 32) 2)
    method := fieldAt data (j + 10) 2
    time := fieldAt data (j + 12) 2
    date := fieldAt data (j + 14) 2
    crc := fieldAt data (j + 16) 4
    us := us
    cs := cs
    internal := fieldAt data (j + 36) 2
    external := fieldAt data (j + 38) 4
    extra := i.extra
    stored := window data (dataStart data off) cs }

theorem item_some {data : Bytes} {j : Nat} {i : Item} (h : Spec.item data j = some i) :
    ∃ us cs off, Accepted data j i us cs off := by
  unfold Spec.item at h
  split at h
  · rename_i h1
    split at h
    · cases h
    · rename_i bl hb
      unfold itemAt at h
      split at h
      · rename_i h2
        split at h
        · cases h
        · split at h
          · cases h
            exact ⟨_, _, _, h1.1, blocksOf_some hb, rfl, rfl, rfl, h2.1, h2.2, rfl⟩
          · cases h
      · cases h
  · cases h

/-- All of them: one after the other, up to the end of the directory. -/
inductive AllAccepted (data : Bytes) (stop : Nat) : Nat → List Item → Prop where
  | nil : AllAccepted data stop stop []
  | cons {j : Nat} {i : Item} {us cs off : Nat} {is : List Item} (h : Accepted data j i us cs off)
      (hs : AllAccepted data stop (j + recordLength data j) is) : AllAccepted data stop j (i :: is)

theorem items_some {data : Bytes} {stop : Nat} : ∀ {n j : Nat} {is : List Item}, Spec.items data stop n j = some is →
    AllAccepted data stop j is ∧ is.length = n := by
  intro n
  induction n with
  | zero =>
    intro j is h
    unfold Spec.items at h
    split at h
    · rename_i hj
      cases h
      subst hj
      exact ⟨.nil, rfl⟩
    · cases h
  | succ n ih =>
    intro j is h
    unfold Spec.items at h
    split at h
    · rename_i i is' h1 h2
      cases h
      obtain ⟨us, cs, off, ha⟩ := item_some h1
      obtain ⟨g1, g2⟩ := ih h2
      exact ⟨.cons ha g1, by rw [List.length_cons, g2]⟩
    · cases h

theorem AllAccepted.le {data : Bytes} {stop j : Nat} {is : List Item} (h : AllAccepted data stop j is) : j ≤ stop := by
  induction h with
  | nil => exact Nat.le_refl _
  | cons _ _ ih => omega

theorem AllAccepted.good {data : Bytes} {stop j : Nat} {is : List Item} (h : AllAccepted data stop j is)
    (hs : stop ≤ data.length) (hm : ∀ i ∈ is, Supported i) : GoodRecords data j is.length := by
  induction h with
  | nil => exact .nil _
  | cons ha hs' ih =>
    rename_i j i us cs off is
    refine .cons _ _ ⟨?_, ha.signature, ?_, ?_⟩ (ih fun q hq => hm q (List.mem_cons_of_mem _ hq))
    · have := hs'.le
      unfold recordLength at this
      omega
    · obtain ⟨⟨m, h1⟩, _⟩ := hm i List.mem_cons_self
      rw [ha.item] at h1
      exact ⟨m, h1⟩
    · exact ⟨_, _, ha.blocks, Nat.zero_le _, (hm i List.mem_cons_self).2⟩

/-- An accepted entry next to the library's. -/
theorem Accepted.shown {data : Bytes} {j : Nat} {i : Item} {us cs off : Nat} {e : StoredZipEntry}
    (h : Accepted data j i us cs off) (hr : RecordAt data j e) : Matches i e ∧ e.fileOffset = off ∧ cs = i.cs := by
  obtain ⟨bl, tail, v1, v2, v3, v4, v5⟩ := hr.values
  have hc := Blocks.content v1 v2 h.blocks
  rw [← hc] at v3 v4 v5
  have hi := h.item
  have e1 : i.us = us := by rw [hi]
  have e2 : i.cs = cs := by rw [hi]
  refine ⟨⟨?_, ?_, ?_, ?_, ?_, ?_, ?_, ?_, ?_, ?_⟩, v5.trans h.offEq.symm, e2.symm⟩
  · rw [hr.name, hi]
  · rw [hr.comment, hi]
  · rw [hi]; exact hr.method
  · rw [hr.time, hi]
  · rw [hr.date, hi]
  · rw [hr.crc, hi]
  · rw [e1, v3, h.usEq]
  · rw [e2, v4, h.csEq]
  · rw [hr.internal, hi]
  · rw [hr.external, hi]

/-- What is known about an accepted entry and the library's. -/
def Both (data : Bytes) (i : Item) (e : StoredZipEntry) : Prop :=
  Matches i e ∧ OccursAt data sigLocal e.fileOffset ∧ dataStart data e.fileOffset + i.cs ≤ data.length ∧
    i.stored = window data (dataStart data e.fileOffset) i.cs

theorem AllAccepted.both {data : Bytes} {stop j : Nat} {is : List Item} (h : AllAccepted data stop j is) :
    ∀ {es : List StoredZipEntry}, Records data j es → es.length = is.length → List.Forall₂ (Both data) is es := by
  induction h with
  | nil =>
    intro es _ hl
    cases es with
    | nil => exact .nil
    | cons e es => cases hl
  | cons ha _ ih =>
    intro es hr hl
    cases hr with
    | nil => cases hl
    | cons _ e es hr hrs =>
      obtain ⟨g1, rfl, rfl⟩ := ha.shown hr
      refine .cons ⟨g1, ha.header, ha.fits, ?_⟩ (ih hrs (by simpa using hl))
      have := ha.item
      rw [this]

end AsyncZip
