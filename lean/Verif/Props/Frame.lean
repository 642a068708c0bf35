import Verif.Proofs.Frame
import Verif.Proofs.Samples
/-!
# C58: what opening looks at
-/

namespace AsyncZip
open Spec Rd

/-- C58. Two files whose last end record, the 20 bytes before it, archive comment, ZIP64 end record and directory records
are the same and in the same places are opened with the same outcome, however the sources behave: nothing else in a file
has a say. -/
theorem C58_index_only (B : Build) (s t : RState) (j : Nat) (h : SameIndex s.data t.data j)
    (hs : ¬ Interrupted (openFile B s).1) (ht : ¬ Interrupted (openFile B t).1) :
    (openFile B s).1 = (openFile B t).1 := by
  rw [openFile_ideal hs, openFile_ideal ht]
  exact openFile_same B h 0 0

/-- C58 for the bytes in front: local headers and entry data in front of the directory can be replaced by anything of the
same length without a change to the outcome of opening the file; no condition on what they are replaced by. -/
theorem C58_entries_unread (B : Build) (x y r : Bytes) (j : Nat) (hxy : x.length = y.length) (he : LastEnd (x ++ r) j)
    (hn : (x ++ r).length ≤ j + (18 + 4 + 65535)) (hj : x.length ≤ j - 20) (hd : x.length ≤ declaredOffset (x ++ r) j)
    (hz : HasLocator (x ++ r) j → x.length ≤ zip64End (x ++ r) j ∧ zip64End (x ++ r) j + 4 < 2 ^ 64) (s t : RState)
    (hsx : s.data = x ++ r) (hty : t.data = y ++ r) (hs : ¬ Interrupted (openFile B s).1)
    (ht : ¬ Interrupted (openFile B t).1) : (openFile B s).1 = (openFile B t).1 :=
  C58_index_only B s t j (hsx ▸ hty ▸ SameIndex.of_prefix hxy he hn hj hd hz) hs ht

/-- C58 for the bytes behind: what follows a complete archive changes nothing, as long as it is no longer than the search
for the end record allows and brings no end record of its own. -/
theorem C58_trailing (B : Build) (a junk : Bytes) (j : Nat) (he : LastEnd a j) (hx : LastEnd (a ++ junk) j)
    (hn : (a ++ junk).length ≤ j + (18 + 4 + 65535)) (hc : j + 22 + fieldAt a (j + 20) 2 ≤ a.length)
    (hd : declaredOffset a j + recordsLength a (declaredOffset a j) (declaredEntries a j) ≤ a.length)
    (hz : HasLocator a j → zip64End a j + 56 ≤ a.length ∧ zip64End a j + 4 < 2 ^ 64) (s t : RState)
    (hsa : s.data = a) (hta : t.data = a ++ junk) (hs : ¬ Interrupted (openFile B s).1)
    (ht : ¬ Interrupted (openFile B t).1) : (openFile B s).1 = (openFile B t).1 :=
  C58_index_only B s t j (hsa ▸ hta ▸ SameIndex.of_suffix he hx hn hc hd hz) hs ht

/-- C58 on a real archive: the local header and data of `Samples.one` may be anything, and the listing is still its own. -/
example (B : Build) (hb : 1 ≤ B.maxVecEntries) (y : Bytes) (hy : y.length = 43) (s : RState)
    (hs : s.data = y ++ Samples.one.drop 43) (hi : ¬ Interrupted (openFile B s).1) :
    (openFile B s).1 = .ok Samples.oneFile := by
  obtain ⟨l, ho⟩ := Samples.one_opens B hb 0 []
  have hsplit : Samples.one.take 43 ++ Samples.one.drop 43 = Samples.one := List.take_append_drop _ _
  rw [← C58_entries_unread B (Samples.one.take 43) y (Samples.one.drop 43) 102 (Eq.trans (by decide) hy.symm) (hsplit ▸ Samples.one_end)
    (hsplit ▸ by decide +kernel) (by decide) (hsplit ▸ by decide +kernel)
    (hsplit ▸ fun h => absurd h (by decide +kernel)) ⟨Samples.one, 0, none, []⟩ s hsplit.symm hs
    (by rw [ho]; exact not_interrupted_ok) hi, ho]

/-- C58 with something behind the archive. -/
example (B : Build) (hb : 1 ≤ B.maxVecEntries) (s : RState) (hs : s.data = Samples.one ++ [80, 75, 5, 7, 0])
    (hi : ¬ Interrupted (openFile B s).1) : (openFile B s).1 = .ok Samples.oneFile := by
  obtain ⟨l, ho⟩ := Samples.one_opens B hb 0 []
  rw [← C58_trailing B Samples.one [80, 75, 5, 7, 0] 102 Samples.one_end
    (lastEnd_of_decide (by unfold OccursAt; decide +kernel)) (by decide +kernel) (by decide +kernel) (by decide +kernel)
    (fun h => absurd h (by decide +kernel)) ⟨Samples.one, 0, none, []⟩ s rfl hs
    (by rw [ho]; exact not_interrupted_ok) hi, ho]

end AsyncZip
