import Verif.Model.EntryReader
/-!
# Builds without some of the compression methods

The rest of the model is the crate with all features. With a feature off, `Compression` lacks a variant, so a program cannot ask the
writer for it; and the two places of the reader that turn a number into a `Compression` refuse it. Here are the functions between
those two places and the API, for any selection of the features.
-/

namespace AsyncZip
open Rd

/-- The features for compression methods, `Cargo.toml:25-30`. -/
structure Features where
  deflate : Bool
  deflate64 : Bool
  bzip2 : Bool
  lzma : Bool
  zstd : Bool
  xz : Bool
deriving DecidableEq, Repr

/-- `TryFrom<u16> for Compression`, `src/spec/compression.rs:33-50`, with its `cfg` attributes. -/
def Compression.tryFromWith (F : Features) (v : UInt16) : Res Compression :=
  if v = 0 then .ok .stored
  else if F.deflate = true ∧ v = 8 then .ok .deflate
  else if F.deflate64 = true ∧ v = 9 then .ok .deflate64
  else if F.bzip2 = true ∧ v = 12 then .ok .bz
  else if F.lzma = true ∧ v = 14 then .ok .lzma
  else if F.zstd = true ∧ v = 93 then .ok .zstd
  else if F.xz = true ∧ v = 95 then .ok .xz
  else .error (.err (.compressionNotSupported v))

/-- `cd_record`, `src/base/read/mod.rs:139-196`. -/
def cdRecordWith (F : Features) (b : Build) : Rd StoredZipEntry := do
  assertSignature CDH_SIGNATURE
  let header ← CentralDirectoryRecord.fromReader
  let headerSize := SIGNATURE_LENGTH + LFH_LENGTH
  let trailingSize := header.fileNameLength.toNat + header.extraFieldLength.toNat
  let filenameBasic ← readBytes header.fileNameLength.toNat
  let compression ← lift (Compression.tryFromWith F header.compression)
  let extraField ← readBytes header.extraFieldLength.toNat
  let extraFields ← lift (parseExtraFields b extraField header.uncompressedSize header.compressedSize)
  let commentBasic ← readBytes header.fileCommentLength.toNat
  let z := getZip64ExtraField extraFields
  let sizes := getCombinedSizes header.uncompressedSize header.compressedSize z
  let fileOffset := selectOffset header.lhOffset z
  let entry : ZipEntry :=
    { filename := detectFilename filenameBasic header.flags.filenameUnicode extraFields
      compression
      compressionLevel := .default
      attributeCompatibility := .unix
      crc32 := header.crc
      uncompressedSize := sizes.1
      compressedSize := sizes.2
      lastModificationDate := { date := header.modDate, time := header.modTime }
      internalFileAttribute := header.interAttr
      externalFileAttribute := header.exterAttr
      extraFields
      comment := detectComment commentBasic header.flags.filenameUnicode extraFields
      dataDescriptor := header.flags.dataDescriptor }
  pure { entry, fileOffset := fileOffset.toNat, headerSize := headerSize + trailingSize }

/-- The loop of `cd`, `src/base/read/mod.rs:91-94`. -/
def cdLoopWith (F : Features) (b : Build) : Nat → Rd (List StoredZipEntry)
  | 0 => pure []
  | n + 1 => do
    let e ← cdRecordWith F b
    let es ← cdLoopWith F b n
    pure (e :: es)

/-- `cd`, `src/base/read/mod.rs:84-97`. -/
def cdWith (F : Features) (b : Build) (numOfEntries : Nat) : Rd (List StoredZipEntry) :=
  if numOfEntries > b.maxVecEntries then fail .panic else cdLoopWith F b numOfEntries

/-- `file`, `src/base/read/mod.rs:39-82`. -/
def openFileWith (F : Features) (b : Build) : Rd ZipFile := do
  let eocdrOffset ← locateEocdr
  let _ ← seekStart eocdrOffset
  let eocdr ← EndOfCentralDirectoryHeader.fromReader
  let comment ← readString eocdr.fileCommLength.toNat .utf8
  let (rec, zip64) ← readCombined b eocdrOffset eocdr
  if rec.diskNumber ≠ rec.diskNumberStartOfCd ∨ rec.numEntries ≠ rec.numEntriesOnDisk then
    throwErr (.featureNotSupported "Spanned/split files")
  else do
    let _ ← seekStart rec.offsetOfStart.toNat
    let entries ← cdWith F b rec.numEntries.toNat
    pure { entries, zip64, comment }

/-- `lfh`, `src/base/read/mod.rs:198-260`. -/
def lfhWith (F : Features) (b : Build) : Rd (Option ZipEntry) := do
  let sig ← readExact 4
  let actual := fromLe32 sig
  if actual = LFH_SIGNATURE then do
    let header ← LocalFileHeader.fromReader
    let filenameBasic ← readBytes header.fileNameLength.toNat
    let compression ← lift (Compression.tryFromWith F header.compression)
    let extraField ← readBytes header.extraFieldLength.toNat
    let extraFields ← lift (parseExtraFields b extraField header.uncompressedSize header.compressedSize)
    let z := getZip64ExtraField extraFields
    let sizes := getCombinedSizes header.uncompressedSize header.compressedSize z
    if header.flags.dataDescriptor && compression == .stored then
      throwErr (.featureNotSupported "stream reading entries with data descriptors & Stored compression mode")
    else if header.flags.encrypted then throwErr (.featureNotSupported "encryption")
    else
      pure (some
        { filename := detectFilename filenameBasic header.flags.filenameUnicode extraFields
          compression
          compressionLevel := .default
          attributeCompatibility := .unix
          crc32 := header.crc
          uncompressedSize := sizes.1
          compressedSize := sizes.2
          lastModificationDate := { date := header.modDate, time := header.modTime }
          internalFileAttribute := 0
          externalFileAttribute := 0
          extraFields
          comment := emptyZipString
          dataDescriptor := header.flags.dataDescriptor })
  else if actual = CDH_SIGNATURE then pure none
  else throwErr (.unexpectedHeaderError actual LFH_SIGNATURE)

/-- `next_with_entry`, `src/base/read/stream.rs:103-114`. -/
def streamNextWith (F : Features) (b : Build) : Rd (Option Reading) := do
  let e ← lfhWith F b
  match e with
  | none => pure none
  | some entry =>
    let length := if entry.dataDescriptor then 2 ^ 64 - 1 else entry.compressedSize.toNat
    pure (some { reader := EntryReader.new entry.compression length, entry, dataDescriptor := entry.dataDescriptor })

end AsyncZip
