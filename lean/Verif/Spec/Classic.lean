import Verif.Spec.Independent
import Verif.Spec.RoundTrip
/-!
# A reader from before ZIP64

What software does that knows APPNOTE as it was before version 4.5: every size, offset and number is what its field of 16 or
32 bits says; a ZIP64 field is one unknown block among others; and nothing is looked for before the end record. Like `independent`
it is not a model of anything in the crate.
-/

namespace AsyncZip.Spec

/-- The entry whose directory record is at `j`. -/
def classicItem (data : List UInt8) (j : Nat) : Option Item :=
  if OccursAt data sigCentral j ∧ fieldAt data (j + 34) 2 = 0 ∧ OccursAt data sigLocal (fieldAt data (j + 42) 4) ∧
      dataStart data (fieldAt data (j + 42) 4) + fieldAt data (j + 20) 4 ≤ data.length ∧
      agrees data j (fieldAt data (j + 42) 4) (fieldAt data (j + 24) 4) (fieldAt data (j + 20) 4) [] = true then
    match blocksOf data.length (window data (j + 46 + fieldAt data (j + 28) 2) (fieldAt data (j + 30) 2)) with
    | none => none
    | some blocks =>
      some {
        name := window data (j + 46) (fieldAt data (j + 28) 2)
        comment := window data (j + 46 + fieldAt data (j + 28) 2 + fieldAt data (j + 30) 2) (fieldAt data (j + 32) 2)
        method := fieldAt data (j + 10) 2
        time := fieldAt data (j + 12) 2
        date := fieldAt data (j + 14) 2
        crc := fieldAt data (j + 16) 4
        us := fieldAt data (j + 24) 4
        cs := fieldAt data (j + 20) 4
        internal := fieldAt data (j + 36) 2
        external := fieldAt data (j + 38) 4
        extra := blocks
        stored := window data (dataStart data (fieldAt data (j + 42) 4)) (fieldAt data (j + 20) 4) }
  else none

/-- The entries whose records start at `j` and end at `stop`. -/
def classicItems (data : List UInt8) (stop : Nat) : Nat → Nat → Option (List Item)
  | 0, j => if j = stop then some [] else none
  | n + 1, j =>
    match classicItem data j, classicItems data stop n (j + recordLength data j) with
    | some i, some is => some (i :: is)
    | _, _ => none

/-- An archive's entries and its comment. The directory must end where the end record begins, and the comment with the file. -/
def classic (data : List UInt8) : Option (List Item × List UInt8) :=
  match lastEndBelow data data.length with
  | none => none
  | some j =>
    if fieldAt data (j + 4) 2 = 0 ∧ fieldAt data (j + 6) 2 = 0 ∧ fieldAt data (j + 8) 2 = fieldAt data (j + 10) 2 ∧
        fieldAt data (j + 16) 4 + fieldAt data (j + 12) 4 = j ∧ j + 22 + fieldAt data (j + 20) 2 = data.length then
      (classicItems data j (fieldAt data (j + 10) 2) (fieldAt data (j + 16) 4)).map (·, data.drop (j + 22))
    else none

/-- What an archive must be like for a reader from before ZIP64 to be able to read it, whoever wrote it: its end record is the last
thing that looks like one, and it is of less than 4 GiB. -/
structure Readable (ops : List Op) (rs : List OpResult) (bytes : List UInt8) : Prop where
  own : ∀ op ∈ ops, ∀ f ∈ userFields op, OwnField f
  comment : (archiveComment ops).length ≤ 65535
  last : LastEnd bytes (endPosition bytes (archiveComment ops))
  count : ∀ r ∈ rs, ¬ TooMany r
  size : bytes.length ≤ 0xFFFFFFFF

end AsyncZip.Spec
