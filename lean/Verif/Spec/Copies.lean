import Verif.Spec.Names
/-!
# What a copy of an entry should keep
-/

namespace AsyncZip.Spec

/-- The extra fields that do not carry the name or comment. -/
def otherFields (fs : List ExtraField) : List ExtraField :=
  fs.filter fun
    | .unicodePath _ => false
    | .unicodeComment _ => false
    | _ => true

/-- `y` is what became of `x`. An extra field without content is lost if it was the last one. -/
structure Copied (x y : ZipEntry) : Prop where
  name : SameText x.filename y.filename
  comment : SameText x.comment y.comment
  method : y.compression = x.compression
  date : y.lastModificationDate = x.lastModificationDate
  internal : y.internalFileAttribute = x.internalFileAttribute
  external : y.externalFileAttribute = x.externalFileAttribute
  fields : ∃ lost, otherFields x.extraFields = otherFields y.extraFields ++ lost ∧
    (lost = [] ∨ ∃ f, lost = [f] ∧ EmptyContent f)

/-- The entry has no ZIP64 field, and its unicode fields do not contradict it. -/
structure Copyable (x : ZipEntry) : Prop where
  zip64 : NoZip64 x.extraFields
  unicode : UnicodeAgrees x

/-- The calls that write these entries with these data, each on a sink that answers like this, and then set the comment. -/
def copyAll : List StoredZipEntry → List (List UInt8 × List Ev) → RString → List Op
  | x :: xs, (d, evs) :: ds, c => .whole x.entry d false evs :: copyAll xs ds c
  | _, _, c => [.comment c]

end AsyncZip.Spec
