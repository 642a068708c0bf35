import Verif.Model.Types
/-!
# What a chain of builder calls should give: for every field, what was set last
-/

namespace AsyncZip.Spec

/-- A call on a `ZipEntryBuilder`. -/
inductive Setter where
  | filename (v : ZipString)
  | compression (v : Compression)
  | crc32 (v : UInt32)
  | compressedSize (v : UInt64)
  | uncompressedSize (v : UInt64)
  | deflateOption (v : DeflateOption)
  | attributeCompatibility (v : AttributeCompatibility)
  | lastModificationDate (v : ZipDateTime)
  | internalFileAttribute (v : UInt16)
  | externalFileAttribute (v : UInt32)
  | extraFields (v : List ExtraField)
  | comment (v : ZipString)
  | unixPermissions (v : UInt16)

/-- What the last call that concerns a field sets it to, or what it was before. -/
def lastSet {α : Type} (f : Setter → Option α) (before : α) (calls : List Setter) : α :=
  (calls.reverse.findSome? f).getD before

/-- The lower half of the external attribute is set by `external_file_attribute`. -/
def Setter.low? : Setter → Option Nat
  | .externalFileAttribute v => some (v.toNat % 2 ^ 16)
  | _ => none

/-- The upper half is set by that and by `unix_permissions`. -/
def Setter.high? : Setter → Option Nat
  | .externalFileAttribute v => some (v.toNat / 2 ^ 16)
  | .unixPermissions v => some v.toNat
  | _ => none

/-- An entry has in every field what was set last, or what the entry before had. -/
structure Built (before : ZipEntry) (calls : List Setter) (e : ZipEntry) : Prop where
  filename : e.filename = lastSet (fun | .filename v => some v | _ => none) before.filename calls
  compression : e.compression = lastSet (fun | .compression v => some v | _ => none) before.compression calls
  crc32 : e.crc32 = lastSet (fun | .crc32 v => some v | _ => none) before.crc32 calls
  compressedSize : e.compressedSize = lastSet (fun | .compressedSize v => some v | _ => none) before.compressedSize calls
  uncompressedSize : e.uncompressedSize = lastSet (fun | .uncompressedSize v => some v | _ => none) before.uncompressedSize calls
  level : e.compressionLevel =
    lastSet (fun | .deflateOption (.other l) => some (.precise l) | .deflateOption _ => some .default | _ => none)
      before.compressionLevel calls
  compatibility : e.attributeCompatibility =
    lastSet (fun | .attributeCompatibility v => some v | _ => none) before.attributeCompatibility calls
  date : e.lastModificationDate =
    lastSet (fun | .lastModificationDate v => some v | _ => none) before.lastModificationDate calls
  internal : e.internalFileAttribute =
    lastSet (fun | .internalFileAttribute v => some v | _ => none) before.internalFileAttribute calls
  low : e.externalFileAttribute.toNat % 2 ^ 16 = lastSet Setter.low? (before.externalFileAttribute.toNat % 2 ^ 16) calls
  high : e.externalFileAttribute.toNat / 2 ^ 16 = lastSet Setter.high? (before.externalFileAttribute.toNat / 2 ^ 16) calls
  extraFields : e.extraFields = lastSet (fun | .extraFields v => some v | _ => none) before.extraFields calls
  comment : e.comment = lastSet (fun | .comment v => some v | _ => none) before.comment calls
  /-- No call sets this. -/
  dataDescriptor : e.dataDescriptor = before.dataDescriptor

end AsyncZip.Spec
