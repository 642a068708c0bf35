import Verif.Model.Header
/-!
# Extra fields (`src/spec/extra_field.rs`, `src/spec/header.rs:73-80`, `src/spec/parse.rs:267-281`)
-/

namespace AsyncZip

/-- `Zip64ExtendedInformationExtraField::content_size`, `src/spec/header.rs:74-79`. The disk number really is counted as
8 bytes although only 4 are written (`extra_field.rs:82-84`). -/
def Zip64Field.contentSize (f : Zip64Field) : Nat :=
  (match f.uncompressedSize with | some _ => 8 | none => 0)
    + (match f.compressedSize with | some _ => 8 | none => 0)
    + (match f.relativeHeaderOffset with | some _ => 8 | none => 0)
    + (match f.diskStartNumber with | some _ => 8 | none => 0)

/-- `Option<u64>` appended as little-endian bytes when present (`extra_field.rs:73-81`). -/
def optLe64 : Option UInt64 → Bytes
  | some x => le64 x
  | none => []

/-- `Option<u32>` appended as little-endian bytes when present (`extra_field.rs:82-84`). -/
def optLe32 : Option UInt32 → Bytes
  | some x => le32 x
  | none => []

/-- `Zip64ExtendedInformationExtraField::as_bytes`, `src/spec/extra_field.rs:68-87`. -/
def Zip64Field.asBytes (f : Zip64Field) : Bytes :=
  le16 f.headerId ++ le16 (UInt16.ofNat f.contentSize) ++ optLe64 f.uncompressedSize ++ optLe64 f.compressedSize
    ++ optLe64 f.relativeHeaderOffset ++ optLe32 f.diskStartNumber

/-- `Zip64ExtendedInformationExtraField::count_bytes`, `src/spec/extra_field.rs:89-91`. -/
def Zip64Field.countBytes (f : Zip64Field) : Nat := 4 + f.contentSize

/-- `UnknownExtraField::as_bytes`, `src/spec/extra_field.rs:52-60`. -/
def UnknownField.asBytes (f : UnknownField) : Bytes := le16 f.headerId ++ le16 f.dataSize ++ f.content

/-- `UnknownExtraField::count_bytes`, `src/spec/extra_field.rs:62-64`. -/
def UnknownField.countBytes (f : UnknownField) : Nat := 4 + f.content.length

/-- `InfoZipUnicode{Comment,Path}ExtraField::as_bytes`, `src/spec/extra_field.rs:95-115` and `126-146`; `id` is the header
id. The `try_into().unwrap()` panics when the content exceeds 65535 bytes. -/
def InfoZipField.asBytes (id : UInt16) (f : InfoZipField) : Res Bytes :=
  match f with
  | .v1 crc unicode =>
    if 5 + unicode.length < 2 ^ 16 then
      .ok (le16 id ++ le16 (UInt16.ofNat (5 + unicode.length)) ++ [1] ++ le32 crc ++ unicode)
    else .error .panic
  | .unknown version data =>
    if 1 + data.length < 2 ^ 16 then
      .ok (le16 id ++ le16 (UInt16.ofNat (1 + data.length)) ++ [version] ++ data)
    else .error .panic

/-- `InfoZipUnicode{Comment,Path}ExtraField::count_bytes`, `src/spec/extra_field.rs:117-122` and `148-153`. -/
def InfoZipField.countBytes : InfoZipField → Nat
  | .v1 _ unicode => 9 + unicode.length
  | .unknown _ data => 5 + data.length

/-- `ExtraField::as_bytes`, `src/spec/extra_field.rs:32-39`. -/
def ExtraField.asBytes : ExtraField → Res Bytes
  | .zip64 f => .ok f.asBytes
  | .unicodeComment f => f.asBytes ID_UCOM
  | .unicodePath f => f.asBytes ID_UPATH
  | .unknown f => .ok f.asBytes

/-- `ExtraField::count_bytes`, `src/spec/extra_field.rs:41-48`. -/
def ExtraField.countBytes : ExtraField → Nat
  | .zip64 f => f.countBytes
  | .unicodeComment f => f.countBytes
  | .unicodePath f => f.countBytes
  | .unknown f => f.countBytes

/-- `<&[ExtraField]>::as_bytes`, `src/spec/extra_field.rs:18-24`. -/
def extraAsBytes : List ExtraField → Res Bytes
  | [] => .ok []
  | f :: fs => do
    let b ← f.asBytes
    let bs ← extraAsBytes fs
    pure (b ++ bs)

/-- `<&[ExtraField]>::count_bytes`, `src/spec/extra_field.rs:26-28`. -/
def extraCountBytes : List ExtraField → Nat
  | [] => 0
  | f :: fs => f.countBytes + extraCountBytes fs

/-- One optional 8-byte read of `zip64_extended_information_field_from_bytes` (`extra_field.rs:166-188`): returns the value
and the new index. `wanted` is the sentinel test on the 32-bit field. -/
def takeOpt64 (wanted : Bool) (data : Bytes) (idx : Nat) : Option UInt64 × Nat :=
  if wanted && data.length ≥ idx + 8 then (some (fromLe64 (slice data idx (idx + 8))), idx + 8) else (none, idx)

/-- `zip64_extended_information_field_from_bytes`, `src/spec/extra_field.rs:158-206`. -/
def zip64FieldFromBytes (headerId : UInt16) (data : Bytes) (uncompressedSize compressedSize : UInt32) : Zip64Field :=
  let u := takeOpt64 (uncompressedSize == NON_ZIP64_MAX_SIZE) data 0
  let c := takeOpt64 (compressedSize == NON_ZIP64_MAX_SIZE) data u.2
  let o := takeOpt64 true data c.2
  let d : Option UInt32 :=
    if data.length ≥ o.2 + 4 then some (fromLe32 (slice data o.2 (o.2 + 4))) else none
  { headerId, uncompressedSize := u.1, compressedSize := c.1, relativeHeaderOffset := o.1, diskStartNumber := d }

/-- `&data[i..j]` with the bounds check of Rust slicing. -/
def sliceChecked (data : Bytes) (i j : Nat) : Res Bytes :=
  if i ≤ j ∧ j ≤ data.length then .ok (slice data i j) else .error .panic

/-- `info_zip_unicode_{comment,path}_extra_field_from_bytes`, `src/spec/extra_field.rs:208-228` and `230-250`;
`incomplete` is the error of the respective function. -/
def infoZipFromBytes (incomplete : ZipError) (dataSize : UInt16) (data : Bytes) : Res InfoZipField :=
  match data with
  | [] => .error (.err incomplete)
  | version :: _ =>
    if version = 1 then
      if data.length < 5 then .error (.err incomplete)
      else do
        let unicode ← sliceChecked data 5 dataSize.toNat
        pure (.v1 (fromLe32 (slice data 1 5)) unicode)
    else do
      let rest ← sliceChecked data 1 dataSize.toNat
      pure (.unknown version rest)

/-- `extra_field_from_bytes`, `src/spec/extra_field.rs:252-271`. -/
def extraFieldFromBytes (headerId dataSize : UInt16) (data : Bytes) (us cs : UInt32) : Res ExtraField :=
  if headerId = ID_ZIP64 then .ok (.zip64 (zip64FieldFromBytes headerId data us cs))
  else if headerId = ID_UCOM then do
    let f ← infoZipFromBytes .infoZipUnicodeCommentFieldIncomplete dataSize data
    pure (.unicodeComment f)
  else if headerId = ID_UPATH then do
    let f ← infoZipFromBytes .infoZipUnicodePathFieldIncomplete dataSize data
    pure (.unicodePath f)
  else .ok (.unknown { headerId, dataSize, content := data })

/-- `data.len() - cursor - 8 - field_size` (`src/spec/parse.rs:274`) on `usize` (64-bit). The subtraction is only
evaluated when it underflows: panic with overflow checks, two's-complement wrap otherwise. -/
def extraRemaining (b : Build) (remaining fieldSize : Nat) : Res Nat :=
  if 8 + fieldSize ≤ remaining then .ok (remaining - 8 - fieldSize)
  else if b.overflowChecks then .error .panic
  else .ok (2 ^ 64 + remaining - 8 - fieldSize)

/-- The loop of `parse_extra_fields`, `src/spec/parse.rs:270-279`. `rest` is `data[cursor..]`, so `cursor + 4 < data.len()`
is `4 < rest.length`. -/
def parseExtraLoop (b : Build) (us cs : UInt32) (rest : Bytes) : Res (List ExtraField) :=
  if _h : 4 < rest.length then
    let headerId := fromLe16 (slice rest 0 2)
    let fieldSize := fromLe16 (slice rest 2 4)
    if 4 + fieldSize.toNat > rest.length then do
      let remaining ← extraRemaining b rest.length fieldSize.toNat
      .error (.err (.invalidExtraFieldHeader fieldSize remaining))
    else do
      let f ← extraFieldFromBytes headerId fieldSize (slice rest 4 (4 + fieldSize.toNat)) us cs
      let fs ← parseExtraLoop b us cs (rest.drop (4 + fieldSize.toNat))
      pure (f :: fs)
  else .ok []
termination_by rest.length
decreasing_by simp only [List.length_drop]; omega

/-- `parse_extra_fields`, `src/spec/parse.rs:267-281`. -/
def parseExtraFields (b : Build) (data : Bytes) (us cs : UInt32) : Res (List ExtraField) :=
  parseExtraLoop b us cs data

/-- `Zip64ExtendedInformationExtraFieldBuilder::new`, `src/spec/extra_field.rs:278-288`; the builder is its field. -/
def Zip64Builder.new : Zip64Field :=
  { headerId := ID_ZIP64, uncompressedSize := none, compressedSize := none, relativeHeaderOffset := none
    diskStartNumber := none }

/-- `Zip64ExtendedInformationExtraFieldBuilder::sizes`, `src/spec/extra_field.rs:290-294`. -/
def Zip64Builder.sizes (f : Zip64Field) (compressedSize uncompressedSize : UInt64) : Zip64Field :=
  { f with compressedSize := some compressedSize, uncompressedSize := some uncompressedSize }

/-- `Zip64ExtendedInformationExtraFieldBuilder::relative_header_offset`, `src/spec/extra_field.rs:296-299`. -/
def Zip64Builder.relativeHeaderOffset (f : Zip64Field) (o : UInt64) : Zip64Field :=
  { f with relativeHeaderOffset := some o }

/-- `Zip64ExtendedInformationExtraFieldBuilder::eof_only`, `src/spec/extra_field.rs:307-310`. -/
def Zip64Builder.eofOnly (f : Zip64Field) : Bool :=
  (f.uncompressedSize.isNone && f.compressedSize.isNone)
    && (f.relativeHeaderOffset.isSome || f.diskStartNumber.isSome)

/-- `Zip64ExtendedInformationExtraFieldBuilder::build`, `src/spec/extra_field.rs:312-319`. -/
def Zip64Builder.build (f : Zip64Field) : Res Zip64Field :=
  if f.contentSize = 0 then .error (.err .zip64ExtendedFieldIncomplete) else .ok f

end AsyncZip
