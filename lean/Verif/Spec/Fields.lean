import Verif.Spec.Local
/-!
# What becomes of extra fields
-/

namespace AsyncZip.Spec

/-- The fields of kinds the crate does not know. -/
def customFields (fs : List ExtraField) : List UnknownField :=
  fs.filterMap fun
    | .unknown f => some f
    | _ => none

/-- The ZIP64 fields. -/
def zip64Fields (fs : List ExtraField) : List Zip64Field :=
  fs.filterMap fun
    | .zip64 f => some f
    | _ => none

/-- The fields other than ZIP64 fields. -/
def otherThanZip64 (fs : List ExtraField) : List ExtraField :=
  fs.filter fun
    | .zip64 _ => false
    | _ => true

/-- The directory record of `l`, whose local header is at `off`, cannot do without a ZIP64 field. -/
def NeedsField (force : Bool) (off : Nat) (l : Listing) : Prop :=
  (l.streamed = true ∧ force = false) ∨ (l.streamed = false ∧ (0xFFFFFFFF < l.us ∨ 0xFFFFFFFF < l.cs ∨ 0xFFFFFFFF < off))

/-- What the reader makes of these fields: one without content is lost if it is the last (`src/spec/parse.rs:270`). -/
def withoutEmptyLast (fs : List ExtraField) : List ExtraField :=
  match fs.reverse with
  | f :: rest => if EmptyContent f then rest.reverse else fs
  | [] => []

/-- The opened archive shows the extra fields of the entry `l` in `e`. A field without content may be lost from the end. The
writer adds one ZIP64 field if need be, and Unicode fields if the name or the comment has an alternative spelling. -/
structure FieldsKept (force : Bool) (off : Nat) (l : Listing) (e : StoredZipEntry) : Prop where
  custom : ∃ lost, customFields l.entry.extraFields = customFields e.entry.extraFields ++ lost ∧
    (lost = [] ∨ ∃ f, lost = [f] ∧ f.content = [])
  plain : l.entry.filename.isUtf8WithoutAlternative = true → l.entry.comment.isUtf8WithoutAlternative = true →
    ∃ lost, l.entry.extraFields = otherThanZip64 e.entry.extraFields ++ lost ∧ (lost = [] ∨ ∃ f, lost = [f] ∧ EmptyContent f)
  exact : l.entry.filename.isUtf8WithoutAlternative = true → l.entry.comment.isUtf8WithoutAlternative = true →
    ¬ NeedsField force off l → e.entry.extraFields = withoutEmptyLast l.entry.extraFields
  needed : NeedsField force off l → ∃ z, zip64Fields e.entry.extraFields = [z]
  unneeded : ¬ NeedsField force off l → zip64Fields e.entry.extraFields = []

/-- How much larger the extra field of the directory record is than that of the local header: the offset is only known, or
only needed, in the directory. -/
def headerGap (force : Bool) (off : Nat) (l : Listing) : Nat :=
  if l.streamed then
    if force then 0 else 8
  else if 0xFFFFFFFF < off ∧ l.us ≤ 0xFFFFFFFF ∧ l.cs ≤ 0xFFFFFFFF then 12 else 0

end AsyncZip.Spec
