import Verif.Spec.Directory
/-!
# What a directory record should say about an entry that brings a ZIP64 field along
-/

namespace AsyncZip.Spec

/-- The first ZIP64 field. -/
def firstZip64 (fs : List ExtraField) : Option Zip64Field :=
  fs.findSome? fun
    | .zip64 z => some z
    | _ => none

/-- The field says what it should, and if it is a ZIP64 field it has the form in which this crate writes it for an entry that
does not fit: with both sizes and without a disk number. -/
def FullField (f : ExtraField) : Prop := WellFormed 0xFFFFFFFF 0xFFFFFFFF f

/-- The entry was written in one go and is too large for the fields of the record. -/
def LargeWhole (l : Listing) : Prop := l.streamed = false ∧ (0xFFFFFFFF < l.us.toNat ∨ 0xFFFFFFFF < l.cs.toNat)

/-- The entry was streamed by a writer that may use ZIP64, or it was written in one go and it and its place are small enough for
the fields of the record. -/
def Harmless (force : Bool) (l : Listing) (off : Nat) : Prop :=
  (force = false ∧ l.streamed = true) ∨
    (l.streamed = false ∧ l.us.toNat < 0xFFFFFFFF ∧ l.cs.toNat < 0xFFFFFFFF ∧ off < 0xFFFFFFFF)

/-- The entry at `off` is none of those known to be recorded wrongly: it either brings no ZIP64 field along and has no `Clash`
(C36) nor exchanged sizes, or brings one in the form in which this crate writes it and is `Harmless`. -/
def Repackable (force : Bool) (l : Listing) (off : Nat) : Prop :=
  ((∀ f ∈ l.entry.extraFields, OwnField f) ∧ ¬ Clash off l ∧ l.recorded force = (l.us, l.cs)) ∨
    ((∀ f ∈ l.entry.extraFields, FullField f) ∧ Harmless force l off)

/-- `y` says what `x` says, apart from sizes and extra fields. -/
structure Kept (x y : ZipEntry) : Prop where
  name : y.filename.basic = x.filename.basic
  comment : y.comment.basic = x.comment.basic
  method : y.compression = x.compression
  date : y.lastModificationDate = x.lastModificationDate
  internal : y.internalFileAttribute = x.internalFileAttribute
  external : y.externalFileAttribute = x.externalFileAttribute

end AsyncZip.Spec
