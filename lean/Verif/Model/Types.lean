import Verif.Model.Str
/-!
# Data types: compression, attributes, dates, headers, entries
-/

namespace AsyncZip

/-- `Compression`, `src/spec/compression.rs:12-26` (all cargo features enabled). -/
inductive Compression where
  | stored | deflate | deflate64 | bz | lzma | zstd | xz
deriving DecidableEq, Repr

/-- `TryFrom<u16> for Compression`, `src/spec/compression.rs:33-50`. -/
def Compression.tryFrom (v : UInt16) : Res Compression :=
  if v = 0 then .ok .stored
  else if v = 8 then .ok .deflate
  else if v = 9 then .ok .deflate64
  else if v = 12 then .ok .bz
  else if v = 14 then .ok .lzma
  else if v = 93 then .ok .zstd
  else if v = 95 then .ok .xz
  else .error (.err (.compressionNotSupported v))

/-- `From<&Compression> for u16`, `src/spec/compression.rs:56-72`. -/
def Compression.toU16 : Compression → UInt16
  | .stored => 0
  | .deflate => 8
  | .deflate64 => 9
  | .bz => 12
  | .lzma => 14
  | .zstd => 93
  | .xz => 95

/-- `async_compression::Level` (the two variants the crate uses). -/
inductive Level where
  | default
  | precise (l : Int)
deriving DecidableEq, Repr

/-- `DeflateOption`, `src/spec/compression.rs:83-98`. -/
inductive DeflateOption where
  | normal | maximum | fast | super | other (l : Int)
deriving DecidableEq, Repr

/-- `DeflateOption::into_level`, `src/spec/compression.rs:102-110`. -/
def DeflateOption.intoLevel : DeflateOption → Level
  | .other l => .precise l
  | _ => .default

/-- `AttributeCompatibility`, `src/spec/attribute.rs:9-11`. -/
inductive AttributeCompatibility where
  | unix
deriving DecidableEq, Repr

/-- `TryFrom<u16> for AttributeCompatibility`, `src/spec/attribute.rs:18-23`. -/
def AttributeCompatibility.tryFrom (v : UInt16) : Res AttributeCompatibility :=
  if v = 3 then .ok .unix else .error (.err (.attributeCompatibilityNotSupported v))

/-- `From<&AttributeCompatibility> for u16`, `src/spec/attribute.rs:29-33`. -/
def AttributeCompatibility.toU16 : AttributeCompatibility → UInt16
  | .unix => 3

/-- `ZipDateTime`, `src/date/mod.rs:16-19`. -/
structure ZipDateTime where
  date : UInt16
  time : UInt16
deriving DecidableEq, Repr

namespace ZipDateTime

/-- `ZipDateTime::default()` (derived), `src/date/mod.rs:15`. -/
def default : ZipDateTime := { date := 0, time := 0 }

/-- `year`, `src/date/mod.rs:23-25`; the sum is at most 127+1980 so the `u16` addition cannot overflow. The `i32`
result is given as a natural number. -/
def year (d : ZipDateTime) : Nat := (((d.date &&& 0xFE00) >>> 9) + 1980).toNat
/-- `month`, `src/date/mod.rs:28-30`. -/
def month (d : ZipDateTime) : Nat := ((d.date &&& 0x1E0) >>> 5).toNat
/-- `day`, `src/date/mod.rs:33-35`. -/
def day (d : ZipDateTime) : Nat := (d.date &&& 0x1F).toNat
/-- `hour`, `src/date/mod.rs:38-40`. -/
def hour (d : ZipDateTime) : Nat := ((d.time &&& 0xF800) >>> 11).toNat
/-- `minute`, `src/date/mod.rs:43-45`. -/
def minute (d : ZipDateTime) : Nat := ((d.time &&& 0x7E0) >>> 5).toNat
/-- `second`, `src/date/mod.rs:50-52`. -/
def second (d : ZipDateTime) : Nat := ((d.time &&& 0x1F) <<< 1).toNat

/-- `TryFrom<u32> for u16` followed by `unwrap`: panics when the value does not fit. -/
def unwrapU16 (n : Nat) : Res UInt16 := if n < 2 ^ 16 then .ok (UInt16.ofNat n) else .error .panic

/-- `ZipDateTimeBuilder::year`, `src/date/builder.rs:28-32`. `year: i32` is an `Int32`; `year - 1980` overflows below
`i32::MIN + 1980`: panic with overflow checks, wrap otherwise. The masked value is non-negative, so `try_into::<u16>`
sees its natural-number value. -/
def withYear (b : Build) (d : ZipDateTime) (year : Int32) : Res ZipDateTime :=
  if b.overflowChecks && year.toInt - 1980 < -(2 ^ 31 : Int) then .error .panic
  else do
    let y ← unwrapU16 ((((year - 1980) <<< 9) &&& 0xFE00).toUInt32.toNat)
    pure { d with date := d.date ||| y }
/-- `ZipDateTimeBuilder::month`, `src/date/builder.rs:35-39`. -/
def withMonth (d : ZipDateTime) (month : UInt32) : Res ZipDateTime := do
  let m ← unwrapU16 ((month <<< 5) &&& 0x1E0).toNat
  pure { d with date := d.date ||| m }
/-- `ZipDateTimeBuilder::day`, `src/date/builder.rs:42-46`. -/
def withDay (d : ZipDateTime) (day : UInt32) : Res ZipDateTime := do
  let v ← unwrapU16 (day &&& 0x1F).toNat
  pure { d with date := d.date ||| v }
/-- `ZipDateTimeBuilder::hour`, `src/date/builder.rs:49-53`. -/
def withHour (d : ZipDateTime) (hour : UInt32) : Res ZipDateTime := do
  let v ← unwrapU16 ((hour <<< 11) &&& 0xF800).toNat
  pure { d with time := d.time ||| v }
/-- `ZipDateTimeBuilder::minute`, `src/date/builder.rs:56-60`. -/
def withMinute (d : ZipDateTime) (minute : UInt32) : Res ZipDateTime := do
  let v ← unwrapU16 ((minute <<< 5) &&& 0x7E0).toNat
  pure { d with time := d.time ||| v }
/-- `ZipDateTimeBuilder::second`, `src/date/builder.rs:65-69`. -/
def withSecond (d : ZipDateTime) (second : UInt32) : Res ZipDateTime := do
  let v ← unwrapU16 ((second >>> 1) &&& 0x1F).toNat
  pure { d with time := d.time ||| v }

end ZipDateTime

/-- `GeneralPurposeFlag`, `src/spec/header.rs:20-24`. -/
structure GeneralPurposeFlag where
  encrypted : Bool
  dataDescriptor : Bool
  filenameUnicode : Bool
deriving DecidableEq, Repr

/-- `LocalFileHeader`, `src/spec/header.rs:5-16`. -/
structure LocalFileHeader where
  version : UInt16
  flags : GeneralPurposeFlag
  compression : UInt16
  modTime : UInt16
  modDate : UInt16
  crc : UInt32
  compressedSize : UInt32
  uncompressedSize : UInt32
  fileNameLength : UInt16
  extraFieldLength : UInt16
deriving DecidableEq, Repr

/-- `CentralDirectoryRecord`, `src/spec/header.rs:107-124`. -/
structure CentralDirectoryRecord where
  vMadeBy : UInt16
  vNeeded : UInt16
  flags : GeneralPurposeFlag
  compression : UInt16
  modTime : UInt16
  modDate : UInt16
  crc : UInt32
  compressedSize : UInt32
  uncompressedSize : UInt32
  fileNameLength : UInt16
  extraFieldLength : UInt16
  fileCommentLength : UInt16
  diskStart : UInt16
  interAttr : UInt16
  exterAttr : UInt32
  lhOffset : UInt32
deriving DecidableEq, Repr

/-- `EndOfCentralDirectoryHeader`, `src/spec/header.rs:128-136`. -/
structure EndOfCentralDirectoryHeader where
  diskNum : UInt16
  startCentDirDisk : UInt16
  numOfEntriesDisk : UInt16
  numOfEntries : UInt16
  sizeCentDir : UInt32
  centDirOffset : UInt32
  fileCommLength : UInt16
deriving DecidableEq, Repr

/-- `Zip64EndOfCentralDirectoryRecord`, `src/spec/header.rs:140-153`. -/
structure Zip64EndOfCentralDirectoryRecord where
  sizeOfRecord : UInt64
  versionMadeBy : UInt16
  versionNeeded : UInt16
  diskNumber : UInt32
  diskNumberStartOfCd : UInt32
  numEntriesOnDisk : UInt64
  numEntries : UInt64
  directorySize : UInt64
  offsetOfStart : UInt64
deriving DecidableEq, Repr

/-- `Zip64EndOfCentralDirectoryLocator`, `src/spec/header.rs:157-161`. -/
structure Zip64EndOfCentralDirectoryLocator where
  numberOfDisk : UInt32
  relativeOffset : UInt64
  totalNumberOfDisks : UInt32
deriving DecidableEq, Repr

/-- `Zip64ExtendedInformationExtraField`, `src/spec/header.rs:64-71`. -/
structure Zip64Field where
  headerId : UInt16
  uncompressedSize : Option UInt64
  compressedSize : Option UInt64
  relativeHeaderOffset : Option UInt64
  diskStartNumber : Option UInt32
deriving DecidableEq, Repr

/-- `InfoZipUnicodeCommentExtraField` / `InfoZipUnicodePathExtraField`, `src/spec/header.rs:85-96` (same shape). -/
inductive InfoZipField where
  | v1 (crc32 : UInt32) (unicode : Bytes)
  | unknown (version : UInt8) (data : Bytes)
deriving DecidableEq, Repr

/-- `UnknownExtraField`, `src/spec/header.rs:100-104`. -/
structure UnknownField where
  headerId : UInt16
  dataSize : UInt16
  content : Bytes
deriving DecidableEq, Repr

/-- `ExtraField`, `src/spec/header.rs:53-58`. -/
inductive ExtraField where
  | zip64 (f : Zip64Field)
  | unicodeComment (f : InfoZipField)
  | unicodePath (f : InfoZipField)
  | unknown (f : UnknownField)
deriving DecidableEq, Repr

/-- `HeaderId::ZIP64_EXTENDED_INFORMATION_EXTRA_FIELD`, `src/spec/header.rs:32`. -/
def ID_ZIP64 : UInt16 := 0x0001
/-- `HeaderId::INFO_ZIP_UNICODE_COMMENT_EXTRA_FIELD`, `src/spec/header.rs:33`. -/
def ID_UCOM : UInt16 := 0x6375
/-- `HeaderId::INFO_ZIP_UNICODE_PATH_EXTRA_FIELD`, `src/spec/header.rs:34`. -/
def ID_UPATH : UInt16 := 0x7075

/-- `ZipEntry`, `src/entry/mod.rs:26-48`. -/
structure ZipEntry where
  filename : ZipString
  compression : Compression
  compressionLevel : Level
  crc32 : UInt32
  uncompressedSize : UInt64
  compressedSize : UInt64
  attributeCompatibility : AttributeCompatibility
  lastModificationDate : ZipDateTime
  internalFileAttribute : UInt16
  externalFileAttribute : UInt32
  extraFields : List ExtraField
  comment : ZipString
  dataDescriptor : Bool
deriving DecidableEq, Repr

/-- The empty `ZipString`, `String::new().into()`. -/
def emptyZipString : ZipString := { encoding := .utf8, raw := [], alternative := none }

namespace ZipEntry

/-- `ZipEntry::new` / `ZipEntryBuilder::new`, `src/entry/mod.rs:57-81`, `src/entry/builder.rs:21-23`. -/
def new (filename : ZipString) (compression : Compression) : ZipEntry :=
  { filename, compression
    compressionLevel := .default
    crc32 := 0
    uncompressedSize := 0
    compressedSize := 0
    attributeCompatibility := .unix
    lastModificationDate := ZipDateTime.default
    internalFileAttribute := 0
    externalFileAttribute := 0
    extraFields := []
    comment := emptyZipString
    dataDescriptor := false }

/-- `ZipEntry::unix_permissions`, `src/entry/mod.rs:147-153`. -/
def unixPermissions (e : ZipEntry) : Option UInt16 :=
  match e.attributeCompatibility with
  | .unix => some (e.externalFileAttribute >>> (16 : UInt32)).toUInt16

/-- `ZipEntryBuilder::unix_permissions`, `src/entry/builder.rs:103-108`. -/
def withUnixPermissions (e : ZipEntry) (mode : UInt16) : ZipEntry :=
  match e.attributeCompatibility with
  | .unix =>
    { e with externalFileAttribute := (e.externalFileAttribute &&& (0xFFFF : UInt32)) ||| (mode.toUInt32 <<< (16 : UInt32)) }

/-- `ZipEntryBuilder::filename`, `src/entry/builder.rs:26-29`. -/
def withFilename (e : ZipEntry) (f : ZipString) : ZipEntry := { e with filename := f }
/-- `ZipEntryBuilder::compression`, `src/entry/builder.rs:32-35`. -/
def withCompression (e : ZipEntry) (c : Compression) : ZipEntry := { e with compression := c }
/-- `ZipEntryBuilder::crc32`, `src/entry/builder.rs:38-41`. -/
def withCrc32 (e : ZipEntry) (c : UInt32) : ZipEntry := { e with crc32 := c }
/-- `ZipEntryBuilder::compressed_size`, `src/entry/builder.rs:44-47`. -/
def withCompressedSize (e : ZipEntry) (n : UInt64) : ZipEntry := { e with compressedSize := n }
/-- `ZipEntryBuilder::uncompressed_size`, `src/entry/builder.rs:50-53`. -/
def withUncompressedSize (e : ZipEntry) (n : UInt64) : ZipEntry := { e with uncompressedSize := n }
/-- `ZipEntryBuilder::deflate_option`, `src/entry/builder.rs:59-62`. -/
def withDeflateOption (e : ZipEntry) (o : DeflateOption) : ZipEntry := { e with compressionLevel := o.intoLevel }
/-- `ZipEntryBuilder::attribute_compatibility`, `src/entry/builder.rs:65-68`. -/
def withAttributeCompatibility (e : ZipEntry) (a : AttributeCompatibility) : ZipEntry :=
  { e with attributeCompatibility := a }
/-- `ZipEntryBuilder::last_modification_date`, `src/entry/builder.rs:71-74`. -/
def withLastModificationDate (e : ZipEntry) (d : ZipDateTime) : ZipEntry := { e with lastModificationDate := d }
/-- `ZipEntryBuilder::internal_file_attribute`, `src/entry/builder.rs:77-80`. -/
def withInternalFileAttribute (e : ZipEntry) (a : UInt16) : ZipEntry := { e with internalFileAttribute := a }
/-- `ZipEntryBuilder::external_file_attribute`, `src/entry/builder.rs:83-86`. -/
def withExternalFileAttribute (e : ZipEntry) (a : UInt32) : ZipEntry := { e with externalFileAttribute := a }
/-- `ZipEntryBuilder::extra_fields`, `src/entry/builder.rs:89-92`. -/
def withExtraFields (e : ZipEntry) (f : List ExtraField) : ZipEntry := { e with extraFields := f }
/-- `ZipEntryBuilder::comment`, `src/entry/builder.rs:95-98`. -/
def withComment (e : ZipEntry) (c : ZipString) : ZipEntry := { e with comment := c }

/-- `ZipEntry::dir`, `src/entry/mod.rs:156-158` (`ends_with('/')` on UTF-8 is a test on the last byte). -/
def dir (e : ZipEntry) : Res Bool := do
  let s ← e.filename.asStr
  pure (s.getLast? == some 0x2F)

end ZipEntry

/-- `SPEC_VERSION_MADE_BY`, `src/spec/version.rs:15`. -/
def SPEC_VERSION_MADE_BY : UInt16 := 63

/-- `as_needed_to_extract`, `src/spec/version.rs:18-36`. -/
def asNeededToExtract (e : ZipEntry) : UInt16 :=
  let version : UInt16 := match e.compression with
    | .deflate => 20
    | .deflate64 => 21
    | .bz => 46
    | .lzma => 63
    | _ => 10
  match e.dir with
  | .ok true => max version 20
  | _ => version

/-- `as_made_by`, `src/spec/version.rs:39-42`. -/
def asMadeBy : UInt16 := ((3 : UInt16) <<< (8 : UInt16)) ||| SPEC_VERSION_MADE_BY

/-- `StoredZipEntry`, `src/entry/mod.rs:166-171`. -/
structure StoredZipEntry where
  entry : ZipEntry
  fileOffset : Nat
  headerSize : Nat
deriving DecidableEq, Repr

/-- `ZipFile`, `src/file/mod.rs:11-15`. -/
structure ZipFile where
  entries : List StoredZipEntry
  zip64 : Bool
  comment : ZipString
deriving DecidableEq, Repr

end AsyncZip
