import Verif.Model.Types
/-!
# Fixed-size records: serialisation and parsing (`src/spec/parse.rs`)

The Rust code pushes each field into a zero-initialised array with `array_push!` (`parse.rs:284-291`); here the fields
are concatenated. That the result has exactly the array's length (so that no index panics and no zero is left over) is
proved in `Verif.Props.Records`.
-/

namespace AsyncZip

/-- `GeneralPurposeFlag::as_slice`, `src/spec/parse.rs:33-48`. -/
def GeneralPurposeFlag.asSlice (f : GeneralPurposeFlag) : Bytes :=
  let encrypted : UInt16 := match f.encrypted with | false => 0x0 | true => 0x1
  let dataDescriptor : UInt16 := match f.dataDescriptor with | false => 0x0 | true => 0x8
  let filenameUnicode : UInt16 := match f.filenameUnicode with | false => 0x0 | true => 0x800
  le16 (encrypted ||| dataDescriptor ||| filenameUnicode)

/-- `From<u16> for GeneralPurposeFlag`, `src/spec/parse.rs:112-118`. -/
def GeneralPurposeFlag.ofU16 (v : UInt16) : GeneralPurposeFlag :=
  { encrypted := (v &&& 0x1) != 0
    dataDescriptor := ((v &&& 0x8) >>> 3) != 0
    filenameUnicode := ((v &&& 0x800) >>> 11) != 0 }

/-- `LocalFileHeader::as_slice`, `src/spec/parse.rs:13-29`. -/
def LocalFileHeader.asSlice (h : LocalFileHeader) : Bytes :=
  le16 h.version ++ h.flags.asSlice ++ le16 h.compression ++ le16 h.modTime ++ le16 h.modDate ++ le32 h.crc
    ++ le32 h.compressedSize ++ le32 h.uncompressedSize ++ le16 h.fileNameLength ++ le16 h.extraFieldLength

/-- `From<[u8; 26]> for LocalFileHeader`, `src/spec/parse.rs:95-108`. -/
def LocalFileHeader.ofBytes (v : Bytes) : LocalFileHeader :=
  { version := fromLe16 (slice v 0 2)
    flags := GeneralPurposeFlag.ofU16 (fromLe16 (slice v 2 4))
    compression := fromLe16 (slice v 4 6)
    modTime := fromLe16 (slice v 6 8)
    modDate := fromLe16 (slice v 8 10)
    crc := fromLe32 (slice v 10 14)
    compressedSize := fromLe32 (slice v 14 18)
    uncompressedSize := fromLe32 (slice v 18 22)
    fileNameLength := fromLe16 (slice v 22 24)
    extraFieldLength := fromLe16 (slice v 24 26) }

/-- `CentralDirectoryRecord::as_slice`, `src/spec/parse.rs:52-74`. -/
def CentralDirectoryRecord.asSlice (h : CentralDirectoryRecord) : Bytes :=
  le16 h.vMadeBy ++ le16 h.vNeeded ++ h.flags.asSlice ++ le16 h.compression ++ le16 h.modTime ++ le16 h.modDate
    ++ le32 h.crc ++ le32 h.compressedSize ++ le32 h.uncompressedSize ++ le16 h.fileNameLength
    ++ le16 h.extraFieldLength ++ le16 h.fileCommentLength ++ le16 h.diskStart ++ le16 h.interAttr
    ++ le32 h.exterAttr ++ le32 h.lhOffset

/-- `From<[u8; 42]> for CentralDirectoryRecord`, `src/spec/parse.rs:122-141`. -/
def CentralDirectoryRecord.ofBytes (v : Bytes) : CentralDirectoryRecord :=
  { vMadeBy := fromLe16 (slice v 0 2)
    vNeeded := fromLe16 (slice v 2 4)
    flags := GeneralPurposeFlag.ofU16 (fromLe16 (slice v 4 6))
    compression := fromLe16 (slice v 6 8)
    modTime := fromLe16 (slice v 8 10)
    modDate := fromLe16 (slice v 10 12)
    crc := fromLe32 (slice v 12 16)
    compressedSize := fromLe32 (slice v 16 20)
    uncompressedSize := fromLe32 (slice v 20 24)
    fileNameLength := fromLe16 (slice v 24 26)
    extraFieldLength := fromLe16 (slice v 26 28)
    fileCommentLength := fromLe16 (slice v 28 30)
    diskStart := fromLe16 (slice v 30 32)
    interAttr := fromLe16 (slice v 32 34)
    exterAttr := fromLe32 (slice v 34 38)
    lhOffset := fromLe32 (slice v 38 42) }

/-- `EndOfCentralDirectoryHeader::as_slice`, `src/spec/parse.rs:78-91`. -/
def EndOfCentralDirectoryHeader.asSlice (h : EndOfCentralDirectoryHeader) : Bytes :=
  le16 h.diskNum ++ le16 h.startCentDirDisk ++ le16 h.numOfEntriesDisk ++ le16 h.numOfEntries
    ++ le32 h.sizeCentDir ++ le32 h.centDirOffset ++ le16 h.fileCommLength

/-- `From<[u8; 18]> for EndOfCentralDirectoryHeader`, `src/spec/parse.rs:145-155`. -/
def EndOfCentralDirectoryHeader.ofBytes (v : Bytes) : EndOfCentralDirectoryHeader :=
  { diskNum := fromLe16 (slice v 0 2)
    startCentDirDisk := fromLe16 (slice v 2 4)
    numOfEntriesDisk := fromLe16 (slice v 4 6)
    numOfEntries := fromLe16 (slice v 6 8)
    sizeCentDir := fromLe32 (slice v 8 12)
    centDirOffset := fromLe32 (slice v 12 16)
    fileCommLength := fromLe16 (slice v 16 18) }

/-- `Zip64EndOfCentralDirectoryRecord::as_bytes`, `src/spec/parse.rs:217-232`. -/
def Zip64EndOfCentralDirectoryRecord.asBytes (h : Zip64EndOfCentralDirectoryRecord) : Bytes :=
  le64 h.sizeOfRecord ++ le16 h.versionMadeBy ++ le16 h.versionNeeded ++ le32 h.diskNumber
    ++ le32 h.diskNumberStartOfCd ++ le64 h.numEntriesOnDisk ++ le64 h.numEntries ++ le64 h.directorySize
    ++ le64 h.offsetOfStart

/-- `From<[u8; 52]> for Zip64EndOfCentralDirectoryRecord`, `src/spec/parse.rs:159-171`. -/
def Zip64EndOfCentralDirectoryRecord.ofBytes (v : Bytes) : Zip64EndOfCentralDirectoryRecord :=
  { sizeOfRecord := fromLe64 (slice v 0 8)
    versionMadeBy := fromLe16 (slice v 8 10)
    versionNeeded := fromLe16 (slice v 10 12)
    diskNumber := fromLe32 (slice v 12 16)
    diskNumberStartOfCd := fromLe32 (slice v 16 20)
    numEntriesOnDisk := fromLe64 (slice v 20 28)
    numEntries := fromLe64 (slice v 28 36)
    directorySize := fromLe64 (slice v 36 44)
    offsetOfStart := fromLe64 (slice v 44 52) }

/-- `Zip64EndOfCentralDirectoryLocator::as_bytes`, `src/spec/parse.rs:254-263`. -/
def Zip64EndOfCentralDirectoryLocator.asBytes (h : Zip64EndOfCentralDirectoryLocator) : Bytes :=
  le32 h.numberOfDisk ++ le64 h.relativeOffset ++ le32 h.totalNumberOfDisks

/-- `From<[u8; 16]> for Zip64EndOfCentralDirectoryLocator`, `src/spec/parse.rs:175-183`. -/
def Zip64EndOfCentralDirectoryLocator.ofBytes (v : Bytes) : Zip64EndOfCentralDirectoryLocator :=
  { numberOfDisk := fromLe32 (slice v 0 4)
    relativeOffset := fromLe64 (slice v 4 12)
    totalNumberOfDisks := fromLe32 (slice v 12 16) }

end AsyncZip
