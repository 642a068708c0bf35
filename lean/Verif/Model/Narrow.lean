import Verif.Model.EntryReader
/-!
# Targets with a narrower `usize`

The rest of the model is the crate on a 64-bit target. The crate is also meant for 32-bit ones (the feature `full-wasm`, the error
`TargetZip64NotSupported`). There, `usize` has `top = 2 ^ 32` values instead of `2 ^ 64`. This shows in two places of the readers: in
`cd`, which converts the number of entries, and in the number that `parse_extra_fields` reports. Here are the functions between those
places and the API, for any `top`. The writer computes lengths in `usize` only of what is in memory already, and offsets in `u64`.
-/

namespace AsyncZip
open Rd

/-- `data.len() - cursor - 8 - field_size` (`src/spec/parse.rs:274`) on a `usize` of `top` values. The subtraction is only
evaluated when it underflows: panic with overflow checks, two's-complement wrap otherwise. -/
def extraRemainingAt (top : Nat) (b : Build) (remaining fieldSize : Nat) : Res Nat :=
  if 8 + fieldSize ≤ remaining then .ok (remaining - 8 - fieldSize)
  else if b.overflowChecks then .error .panic
  else .ok (top + remaining - 8 - fieldSize)

/-- The loop of `parse_extra_fields`, `src/spec/parse.rs:270-279`. `rest` is `data[cursor..]`, so `cursor + 4 < data.len()`
is `4 < rest.length`. -/
def parseExtraLoopAt (top : Nat) (b : Build) (us cs : UInt32) (rest : Bytes) : Res (List ExtraField) :=
  if _h : 4 < rest.length then
    let headerId := fromLe16 (slice rest 0 2)
    let fieldSize := fromLe16 (slice rest 2 4)
    if 4 + fieldSize.toNat > rest.length then do
      let remaining ← extraRemainingAt top b rest.length fieldSize.toNat
      .error (.err (.invalidExtraFieldHeader fieldSize remaining))
    else do
      let f ← extraFieldFromBytes headerId fieldSize (slice rest 4 (4 + fieldSize.toNat)) us cs
      let fs ← parseExtraLoopAt top b us cs (rest.drop (4 + fieldSize.toNat))
      pure (f :: fs)
  else .ok []
termination_by rest.length
decreasing_by simp only [List.length_drop]; omega

/-- `cd_record`, `src/base/read/mod.rs:139-196`. -/
def cdRecordAt (top : Nat) (b : Build) : Rd StoredZipEntry := do
  assertSignature CDH_SIGNATURE
  let header ← CentralDirectoryRecord.fromReader
  let headerSize := SIGNATURE_LENGTH + LFH_LENGTH
  let trailingSize := header.fileNameLength.toNat + header.extraFieldLength.toNat
  let filenameBasic ← readBytes header.fileNameLength.toNat
  let compression ← lift (Compression.tryFrom header.compression)
  let extraField ← readBytes header.extraFieldLength.toNat
  let extraFields ← lift (parseExtraLoopAt top b header.uncompressedSize header.compressedSize extraField)
  let commentBasic ← readBytes header.fileCommentLength.toNat
  let z := getZip64ExtraField extraFields
  let sizes := getCombinedSizes header.uncompressedSize header.compressedSize z
  let fileOffset := selectOffset header.lhOffset z
  let entry : ZipEntry :=
    { filename := detectFilename filenameBasic header.flags.filenameUnicode extraFields
      compression
      compressionLevel := .default
      attributeCompatibility := .unix
      crc32 := header.crc
      uncompressedSize := sizes.1
      compressedSize := sizes.2
      lastModificationDate := { date := header.modDate, time := header.modTime }
      internalFileAttribute := header.interAttr
      externalFileAttribute := header.exterAttr
      extraFields
      comment := detectComment commentBasic header.flags.filenameUnicode extraFields
      dataDescriptor := header.flags.dataDescriptor }
  pure { entry, fileOffset := fileOffset.toNat, headerSize := headerSize + trailingSize }

/-- The loop of `cd`, `src/base/read/mod.rs:91-94`. -/
def cdLoopAt (top : Nat) (b : Build) : Nat → Rd (List StoredZipEntry)
  | 0 => pure []
  | n + 1 => do
    let e ← cdRecordAt top b
    let es ← cdLoopAt top b n
    pure (e :: es)

/-- `cd`, `src/base/read/mod.rs:84-97`. The `try_into` fails from `top` on. `Vec::with_capacity` panics (or aborts) when the declared
count is too large, before anything is read. -/
def cdAt (top : Nat) (b : Build) (numOfEntries : Nat) : Rd (List StoredZipEntry) :=
  if numOfEntries ≥ top then throwErr .targetZip64NotSupported
  else if numOfEntries > b.maxVecEntries then fail .panic else cdLoopAt top b numOfEntries

/-- `file`, `src/base/read/mod.rs:39-82`; the body of `ZipFileReader::new` in `seek.rs:55-58`, `mem.rs:96-99` and
`tokio/read/fs.rs:97-103`. -/
def openFileAt (top : Nat) (b : Build) : Rd ZipFile := do
  let eocdrOffset ← locateEocdr
  let _ ← seekStart eocdrOffset
  let eocdr ← EndOfCentralDirectoryHeader.fromReader
  let comment ← readString eocdr.fileCommLength.toNat .utf8
  let (rec, zip64) ← readCombined b eocdrOffset eocdr
  if rec.diskNumber ≠ rec.diskNumberStartOfCd ∨ rec.numEntries ≠ rec.numEntriesOnDisk then
    throwErr (.featureNotSupported "Spanned/split files")
  else do
    let _ ← seekStart rec.offsetOfStart.toNat
    let entries ← cdAt top b rec.numEntries.toNat
    pure { entries, zip64, comment }

/-- `lfh`, `src/base/read/mod.rs:198-260`. -/
def lfhAt (top : Nat) (b : Build) : Rd (Option ZipEntry) := do
  let sig ← readExact 4
  let actual := fromLe32 sig
  if actual = LFH_SIGNATURE then do
    let header ← LocalFileHeader.fromReader
    let filenameBasic ← readBytes header.fileNameLength.toNat
    let compression ← lift (Compression.tryFrom header.compression)
    let extraField ← readBytes header.extraFieldLength.toNat
    let extraFields ← lift (parseExtraLoopAt top b header.uncompressedSize header.compressedSize extraField)
    let z := getZip64ExtraField extraFields
    let sizes := getCombinedSizes header.uncompressedSize header.compressedSize z
    if header.flags.dataDescriptor && compression == .stored then
      throwErr (.featureNotSupported "stream reading entries with data descriptors & Stored compression mode")
    else if header.flags.encrypted then throwErr (.featureNotSupported "encryption")
    else
      pure (some
        { filename := detectFilename filenameBasic header.flags.filenameUnicode extraFields
          compression
          compressionLevel := .default
          attributeCompatibility := .unix
          crc32 := header.crc
          uncompressedSize := sizes.1
          compressedSize := sizes.2
          lastModificationDate := { date := header.modDate, time := header.modTime }
          internalFileAttribute := 0
          externalFileAttribute := 0
          extraFields
          comment := emptyZipString
          dataDescriptor := header.flags.dataDescriptor })
  else if actual = CDH_SIGNATURE then pure none
  else throwErr (.unexpectedHeaderError actual LFH_SIGNATURE)

/-- `next_with_entry`, `src/base/read/stream.rs:103-114` (`next_without_entry`, `90-100`, forgets the entry). -/
def streamNextAt (top : Nat) (b : Build) : Rd (Option Reading) := do
  let e ← lfhAt top b
  match e with
  | none => pure none
  | some entry =>
    let length := if entry.dataDescriptor then 2 ^ 64 - 1 else entry.compressedSize.toNat
    pure (some { reader := EntryReader.new entry.compression length, entry, dataDescriptor := entry.dataDescriptor })

end AsyncZip
