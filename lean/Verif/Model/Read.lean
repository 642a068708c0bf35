import Verif.Model.Rd
import Verif.Model.ExtraField
import Verif.Model.Crc
/-!
# Opening an archive (`src/base/read/mod.rs`, `src/base/read/io/*.rs`, `src/utils.rs`)
-/

namespace AsyncZip
open Rd

/-- `BUFFER_SIZE`, `src/base/read/io/locator.rs:29`. -/
def BUFFER_SIZE : Nat := 2048
/-- `EOCDR_UPPER_BOUND`, `src/base/read/io/locator.rs:32`. -/
def EOCDR_UPPER_BOUND : Nat := EOCDR_LENGTH
/-- `EOCDR_LOWER_BOUND`, `src/base/read/io/locator.rs:35`. -/
def EOCDR_LOWER_BOUND : Nat := EOCDR_UPPER_BOUND + SIGNATURE_LENGTH + 65535

/-- Result of comparing the signature backwards from an index (inner loop of `reverse_search_buffer`). -/
inductive Cmp where
  | hit
  | mismatch
  | underflow
deriving DecidableEq

/-- Inner loop of `reverse_search_buffer`, `src/base/read/io/locator.rs:93-101`: `sigRev` is what remains of
`signature.iter().rev()`, `k` is `signature_index`. -/
def cmpBack (buffer : Bytes) (index : Nat) : Bytes → Nat → Cmp
  | [], _ => .hit
  | sb :: sigRev, k =>
    if k ≤ index then
      if buffer[index - k]? != some sb then .mismatch else cmpBack buffer index sigRev (k + 1)
    else .underflow

/-- Outer loop of `reverse_search_buffer`, `src/base/read/io/locator.rs:92-104`; the argument is one more than the next
index to try. -/
def searchFrom (buffer sigRev : Bytes) : Nat → Option Nat
  | 0 => none
  | index + 1 =>
    match cmpBack buffer index sigRev 0 with
    | .hit => some index
    | .mismatch => searchFrom buffer sigRev index
    | .underflow => none

/-- `reverse_search_buffer`, `src/base/read/io/locator.rs:91-105`. -/
def reverseSearchBuffer (buffer signature : Bytes) : Option Nat :=
  searchFrom buffer signature.reverse buffer.length

/-- Filling the locator's buffer, `src/base/read/io/locator.rs:58-67`. -/
def fillBuffer : Rd Bytes := readUpToLoop BUFFER_SIZE []

/-- The loop of `eocdr`, `src/base/read/io/locator.rs:57-83`. -/
def eocdrLoop (length position : Nat) : Rd Nat := do
  let buffer ← fillBuffer
  match reverseSearchBuffer buffer (le32 EOCDR_SIGNATURE) with
  | some matchIndex => pure (position + (matchIndex + 1))
  | none =>
    if position = 0 ∨ position ≤ length - EOCDR_LOWER_BOUND then throwErr .unableToLocateEOCDR
    else do
      let _ ← seekStart (position - (BUFFER_SIZE - SIGNATURE_LENGTH))
      eocdrLoop length (position - (BUFFER_SIZE - SIGNATURE_LENGTH))
termination_by position
decreasing_by simp [BUFFER_SIZE, SIGNATURE_LENGTH]; omega

/-- `locator::eocdr`, `src/base/read/io/locator.rs:46-84`. -/
def locateEocdr : Rd Nat := do
  let length ← seekEnd
  let position := length - BUFFER_SIZE
  let _ ← seekStart position
  eocdrLoop length position

/-- `CombinedCentralDirectoryRecord`, `src/base/read/io/combined_record.rs:9-19`. -/
structure CombinedRecord where
  versionMadeBy : Option UInt16
  versionNeeded : Option UInt16
  diskNumber : UInt32
  diskNumberStartOfCd : UInt32
  numEntriesOnDisk : UInt64
  numEntries : UInt64
  directorySize : UInt64
  offsetOfStart : UInt64
  fileCommentLength : UInt16
deriving DecidableEq, Repr

/-- `From<&EndOfCentralDirectoryHeader>`, `src/base/read/io/combined_record.rs:55-67`. -/
def CombinedRecord.ofEocdr (h : EndOfCentralDirectoryHeader) : CombinedRecord :=
  { versionMadeBy := none
    versionNeeded := none
    diskNumber := h.diskNum.toUInt32
    diskNumberStartOfCd := h.startCentDirDisk.toUInt32
    numEntriesOnDisk := h.numOfEntriesDisk.toUInt64
    numEntries := h.numOfEntries.toUInt64
    directorySize := h.sizeCentDir.toUInt64
    offsetOfStart := h.centDirOffset.toUInt64
    fileCommentLength := h.fileCommLength }

/-- `CombinedCentralDirectoryRecord::combine`, `src/base/read/io/combined_record.rs:26-50`. -/
def CombinedRecord.combine (e : EndOfCentralDirectoryHeader) (z : Zip64EndOfCentralDirectoryRecord) : CombinedRecord :=
  let c := CombinedRecord.ofEocdr e
  { versionMadeBy := some z.versionMadeBy
    versionNeeded := some z.versionNeeded
    diskNumber := if e.diskNum = 0xFFFF then z.diskNumber else c.diskNumber
    diskNumberStartOfCd := if e.startCentDirDisk = 0xFFFF then z.diskNumberStartOfCd else c.diskNumberStartOfCd
    numEntriesOnDisk := if e.numOfEntriesDisk = 0xFFFF then z.numEntriesOnDisk else c.numEntriesOnDisk
    numEntries := if e.numOfEntries = 0xFFFF then z.numEntries else c.numEntries
    directorySize := if e.sizeCentDir = 0xFFFFFFFF then z.directorySize else c.directorySize
    offsetOfStart := if e.centDirOffset = 0xFFFFFFFF then z.offsetOfStart else c.offsetOfStart
    fileCommentLength := c.fileCommentLength }

/-- `assert_signature`, `src/utils.rs:8-18`. -/
def assertSignature (expected : UInt32) : Rd Unit := do
  let b ← readExact 4
  let actual := fromLe32 b
  if actual = expected then pure () else throwErr (.unexpectedHeaderError actual expected)

/-- `EndOfCentralDirectoryHeader::from_reader`, `src/spec/parse.rs:195-199`. -/
def EndOfCentralDirectoryHeader.fromReader : Rd EndOfCentralDirectoryHeader := do
  let b ← readExact 18
  pure (EndOfCentralDirectoryHeader.ofBytes b)

/-- `LocalFileHeader::from_reader`, `src/spec/parse.rs:187-191`. -/
def LocalFileHeader.fromReader : Rd LocalFileHeader := do
  let b ← readExact 26
  pure (LocalFileHeader.ofBytes b)

/-- `CentralDirectoryRecord::from_reader`, `src/spec/parse.rs:203-207`. -/
def CentralDirectoryRecord.fromReader : Rd CentralDirectoryRecord := do
  let b ← readExact 42
  pure (CentralDirectoryRecord.ofBytes b)

/-- `Zip64EndOfCentralDirectoryRecord::from_reader`, `src/spec/parse.rs:211-215`. -/
def Zip64EndOfCentralDirectoryRecord.fromReader : Rd Zip64EndOfCentralDirectoryRecord := do
  let b ← readExact 52
  pure (Zip64EndOfCentralDirectoryRecord.ofBytes b)

/-- `Zip64EndOfCentralDirectoryLocator::try_from_reader`, `src/spec/parse.rs:238-252`. -/
def Zip64EndOfCentralDirectoryLocator.tryFromReader : Rd (Option Zip64EndOfCentralDirectoryLocator) := do
  let sig ← readExact 4
  if fromLe32 sig ≠ ZIP64_EOCDL_SIGNATURE then pure none
  else do
    let b ← readExact 16
    pure (some (Zip64EndOfCentralDirectoryLocator.ofBytes b))

/-- `io::read_string`, `src/base/read/io/mod.rs:17-22`. -/
def readString (length : Nat) (encoding : StringEncoding) : Rd ZipString := do
  let b ← readBytes length
  pure (ZipString.new b encoding)

/-- `get_zip64_extra_field`, `src/base/read/mod.rs:99-106`. -/
def getZip64ExtraField : List ExtraField → Option Zip64Field
  | [] => none
  | .zip64 f :: _ => some f
  | _ :: fs => getZip64ExtraField fs

/-- `get_combined_sizes`, `src/base/read/mod.rs:119-137`: (uncompressed, compressed). -/
def getCombinedSizes (us cs : UInt32) (f : Option Zip64Field) : UInt64 × UInt64 :=
  match f with
  | none => (us.toUInt64, cs.toUInt64)
  | some f => (f.uncompressedSize.getD us.toUInt64, f.compressedSize.getD cs.toUInt64)

/-- The local header offset selection of `cd_record`, `src/base/read/mod.rs:158-165`. -/
def selectOffset (lhOffset : UInt32) (f : Option Zip64Field) : UInt64 :=
  match f with
  | none => lhOffset.toUInt64
  | some f =>
    if lhOffset = NON_ZIP64_MAX_SIZE then f.relativeHeaderOffset.getD lhOffset.toUInt64 else lhOffset.toUInt64

/-- The Info-ZIP payload `find_map` selects for a comment, `src/base/read/mod.rs:266-275`. -/
def findUnicodeComment (basic : Bytes) (fields : List ExtraField) : Option Bytes :=
  fields.findSome? fun
    | .unicodeComment (.v1 crc unicode) => if crc = crc32 basic then some unicode else none
    | _ => none

/-- The Info-ZIP payload `find_map` selects for a file name, `src/base/read/mod.rs:296-305`. -/
def findUnicodePath (basic : Bytes) (fields : List ExtraField) : Option Bytes :=
  fields.findSome? fun
    | .unicodePath (.v1 crc unicode) => if crc = crc32 basic then some unicode else none
    | _ => none

/-- The common tail of `detect_comment`/`detect_filename` when the UTF-8 flag is unset, `src/base/read/mod.rs:276-288` and
`306-318`. -/
def detectFallback (basic : Bytes) (unicode : Option Bytes) : ZipString :=
  let plain : ZipString :=
    if isAscii basic then { encoding := .utf8, raw := basic, alternative := none } else ZipString.new basic .raw
  match unicode with
  | some u => if h : utf8Valid u = true then ZipString.newWithAlternative ⟨u, h⟩ basic else plain
  | none => plain

/-- `detect_comment`, `src/base/read/mod.rs:262-290`. -/
def detectComment (basic : Bytes) (basicIsUtf8 : Bool) (fields : List ExtraField) : ZipString :=
  if basicIsUtf8 then ZipString.new basic .utf8 else detectFallback basic (findUnicodeComment basic fields)

/-- `detect_filename`, `src/base/read/mod.rs:292-320`. -/
def detectFilename (basic : Bytes) (basicIsUtf8 : Bool) (fields : List ExtraField) : ZipString :=
  if basicIsUtf8 then ZipString.new basic .utf8 else detectFallback basic (findUnicodePath basic fields)

/-- `cd_record`, `src/base/read/mod.rs:139-196`. -/
def cdRecord (b : Build) : Rd StoredZipEntry := do
  assertSignature CDH_SIGNATURE
  let header ← CentralDirectoryRecord.fromReader
  let headerSize := SIGNATURE_LENGTH + LFH_LENGTH
  let trailingSize := header.fileNameLength.toNat + header.extraFieldLength.toNat
  let filenameBasic ← readBytes header.fileNameLength.toNat
  let compression ← lift (Compression.tryFrom header.compression)
  let extraField ← readBytes header.extraFieldLength.toNat
  let extraFields ← lift (parseExtraFields b extraField header.uncompressedSize header.compressedSize)
  let commentBasic ← readBytes header.fileCommentLength.toNat
  let z := getZip64ExtraField extraFields
  let sizes := getCombinedSizes header.uncompressedSize header.compressedSize z
  let fileOffset := selectOffset header.lhOffset z
  let entry : ZipEntry :=
    { filename := detectFilename filenameBasic header.flags.filenameUnicode extraFields
      compression
      compressionLevel := .default
      attributeCompatibility := .unix
      crc32 := header.crc
      uncompressedSize := sizes.1
      compressedSize := sizes.2
      lastModificationDate := { date := header.modDate, time := header.modTime }
      internalFileAttribute := header.interAttr
      externalFileAttribute := header.exterAttr
      extraFields
      comment := detectComment commentBasic header.flags.filenameUnicode extraFields
      dataDescriptor := header.flags.dataDescriptor }
  pure { entry, fileOffset := fileOffset.toNat, headerSize := headerSize + trailingSize }

/-- The loop of `cd`, `src/base/read/mod.rs:91-94`. -/
def cdLoop (b : Build) : Nat → Rd (List StoredZipEntry)
  | 0 => pure []
  | n + 1 => do
    let e ← cdRecord b
    let es ← cdLoop b n
    pure (e :: es)

/-- `cd`, `src/base/read/mod.rs:84-97`. On a 64-bit target the `try_into` cannot fail. `Vec::with_capacity` panics (or
aborts) when the declared count is too large, before anything is read. -/
def cd (b : Build) (numOfEntries : Nat) : Rd (List StoredZipEntry) :=
  if numOfEntries > b.maxVecEntries then fail .panic else cdLoop b numOfEntries

/-- The ZIP64 part of `file`, `src/base/read/mod.rs:53-68`. -/
def readCombined (b : Build) (eocdrOffset : Nat) (eocdr : EndOfCentralDirectoryHeader) : Rd (CombinedRecord × Bool) :=
  if eocdrOffset < ZIP64_EOCDL_LENGTH + SIGNATURE_LENGTH then pure (CombinedRecord.ofEocdr eocdr, false)
  else do
    let _ ← seekStart (eocdrOffset - (ZIP64_EOCDL_LENGTH + SIGNATURE_LENGTH))
    let l ← Zip64EndOfCentralDirectoryLocator.tryFromReader
    match l with
    | some locator => do
      let target ← lift (addU64 b locator.relativeOffset.toNat SIGNATURE_LENGTH)
      let _ ← seekStart target
      let z ← Zip64EndOfCentralDirectoryRecord.fromReader
      pure (CombinedRecord.combine eocdr z, true)
    | none => pure (CombinedRecord.ofEocdr eocdr, false)

/-- `file`, `src/base/read/mod.rs:39-82`; the body of `ZipFileReader::new` in `seek.rs:55-58`, `mem.rs:96-99` and
`tokio/read/fs.rs:97-103`. -/
def openFile (b : Build) : Rd ZipFile := do
  let eocdrOffset ← locateEocdr
  let _ ← seekStart eocdrOffset
  let eocdr ← EndOfCentralDirectoryHeader.fromReader
  let comment ← readString eocdr.fileCommLength.toNat .utf8
  let (rec, zip64) ← readCombined b eocdrOffset eocdr
  if rec.diskNumber ≠ rec.diskNumberStartOfCd ∨ rec.numEntries ≠ rec.numEntriesOnDisk then
    throwErr (.featureNotSupported "Spanned/split files")
  else do
    let _ ← seekStart rec.offsetOfStart.toNat
    let entries ← cd b rec.numEntries.toNat
    pure { entries, zip64, comment }

/-- `lfh`, `src/base/read/mod.rs:198-260`. -/
def lfh (b : Build) : Rd (Option ZipEntry) := do
  let sig ← readExact 4
  let actual := fromLe32 sig
  if actual = LFH_SIGNATURE then do
    let header ← LocalFileHeader.fromReader
    let filenameBasic ← readBytes header.fileNameLength.toNat
    let compression ← lift (Compression.tryFrom header.compression)
    let extraField ← readBytes header.extraFieldLength.toNat
    let extraFields ← lift (parseExtraFields b extraField header.uncompressedSize header.compressedSize)
    let z := getZip64ExtraField extraFields
    let sizes := getCombinedSizes header.uncompressedSize header.compressedSize z
    if header.flags.dataDescriptor && compression == .stored then
      throwErr (.featureNotSupported "stream reading entries with data descriptors & Stored compression mode")
    else if header.flags.encrypted then throwErr (.featureNotSupported "encryption")
    else
      pure (some
        { filename := detectFilename filenameBasic header.flags.filenameUnicode extraFields
          compression
          compressionLevel := .default
          attributeCompatibility := .unix
          crc32 := header.crc
          uncompressedSize := sizes.1
          compressedSize := sizes.2
          lastModificationDate := { date := header.modDate, time := header.modTime }
          internalFileAttribute := 0
          externalFileAttribute := 0
          extraFields
          comment := emptyZipString
          dataDescriptor := header.flags.dataDescriptor })
  else if actual = CDH_SIGNATURE then pure none
  else throwErr (.unexpectedHeaderError actual LFH_SIGNATURE)

end AsyncZip
