import Verif.Spec.Archive
/-!
# The part of a file that opening it is about
-/

namespace AsyncZip.Spec

/-- Total length of `n` consecutive directory records from `off` on. -/
def recordsLength (data : List UInt8) : Nat → Nat → Nat
  | _, 0 => 0
  | off, n + 1 => recordLength data off + recordsLength data (off + recordLength data off) n

/-- Two files have the same end records, comment and directory, in the same places: the end record at `j` with its comment
and the 20 bytes before it, the ZIP64 end record if there is a locator, and the declared number of directory records. -/
structure SameIndex (a b : List UInt8) (j : Nat) : Prop where
  end_a : LastEnd a j
  end_b : LastEnd b j
  near_a : a.length ≤ j + (18 + 4 + 65535)
  near_b : b.length ≤ j + (18 + 4 + 65535)
  before : window a (j - 20) 20 = window b (j - 20) 20
  record : window a j (22 + fieldAt a (j + 20) 2) = window b j (22 + fieldAt a (j + 20) 2)
  zip64 : HasLocator a j → zip64End a j + 4 < 2 ^ 64 ∧ window a (zip64End a j) 56 = window b (zip64End a j) 56
  directory : window a (declaredOffset a j) (recordsLength a (declaredOffset a j) (declaredEntries a j)) =
    window b (declaredOffset a j) (recordsLength a (declaredOffset a j) (declaredEntries a j))

/-- The same, but for the comment. -/
structure SameDirectory (a b : List UInt8) (j : Nat) : Prop where
  end_a : LastEnd a j
  end_b : LastEnd b j
  near_a : a.length ≤ j + (18 + 4 + 65535)
  near_b : b.length ≤ j + (18 + 4 + 65535)
  before : window a (j - 20) 20 = window b (j - 20) 20
  record : window a j 22 = window b j 22
  zip64 : HasLocator a j → zip64End a j + 4 < 2 ^ 64 ∧ window a (zip64End a j) 56 = window b (zip64End a j) 56
  directory : window a (declaredOffset a j) (recordsLength a (declaredOffset a j) (declaredEntries a j)) =
    window b (declaredOffset a j) (recordsLength a (declaredOffset a j) (declaredEntries a j))

end AsyncZip.Spec
