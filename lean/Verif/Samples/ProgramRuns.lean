import Verif.Samples.Programs
/-!
# What the sample program gives
-/

namespace AsyncZip.Samples

deriving instance DecidableEq for Except
deriving instance DecidableEq for RString
deriving instance DecidableEq for OpResult
deriving instance DecidableEq for ZipWriter

/-- What the program sees of its calls. -/
def programResults : List OpResult :=
  [OpResult.whole (Except.ok ()), OpResult.stream (Except.ok ()) [Except.ok 2] none, OpResult.stream (Except.ok ())
  [Except.ok 2, Except.ok 0, Except.ok 1] (some (Except.ok ())), OpResult.comment, OpResult.whole (Except.error
  (Fail.err (ZipError.upstreamReadError (IoError.other 5))))]

/-- The writer after the program. -/
def programWriter : ZipWriter :=
  { writer := { sink := { bytes := [80, 75, 3, 4, 10, 0, 0, 8, 0, 0, 131, 24, 34, 80, 172, 42, 147, 216, 2, 0, 0, 0, 2, 0,
                                    0, 0, 3, 0, 0, 0, 97, 46, 116, 104, 105, 80, 75, 3, 4, 10, 0, 8, 8, 0, 0, 131, 24, 34,
                                    80, 0, 0, 0, 0, 255, 255, 255, 255, 255, 255, 255, 255, 3, 0, 20, 0, 97, 46, 116, 1,
                                    0, 16, 0, 0, 0, 0, 0, 0, 0, 0, 0, 0, 0, 0, 0, 0, 0, 0, 0, 1, 2, 80, 75, 3, 4, 20, 0,
                                    8, 8, 8, 0, 0, 0, 0, 0, 0, 0, 0, 0, 255, 255, 255, 255, 255, 255, 255, 255, 1, 0, 20,
                                    0, 98, 1, 0, 16, 0, 0, 0, 0, 0, 0, 0, 0, 0, 0, 0, 0, 0, 0, 0, 0, 0, 1, 7, 1, 8, 2, 1,
                                    9, 0, 80, 75, 7, 8, 59, 253, 11, 75, 255, 255, 255, 255, 255, 255, 255, 255, 80, 75,
                                    3, 4],
                          flushes := 1,
                          closes := 0 },
                offset := 169 },
    cdEntries := [{ header := { vMadeBy := 831,
                                vNeeded := 10,
                                flags := { encrypted := false, dataDescriptor := false, filenameUnicode := true },
                                compression := 0,
                                modTime := 6275,
                                modDate := 20514,
                                crc := 3633523372,
                                compressedSize := 2,
                                uncompressedSize := 2,
                                fileNameLength := 3,
                                extraFieldLength := 0,
                                fileCommentLength := 0,
                                diskStart := 0,
                                interAttr := 0,
                                exterAttr := 0,
                                lhOffset := 0 },
                    entry := { filename := { encoding := StringEncoding.utf8,
                                             raw := [97, 46, 116],
                                             alternative := none },
                               compression := Compression.stored,
                               compressionLevel := Level.default,
                               crc32 := 3633523372,
                               uncompressedSize := 2,
                               compressedSize := 2,
                               attributeCompatibility := AttributeCompatibility.unix,
                               lastModificationDate := { date := 20514, time := 6275 },
                               internalFileAttribute := 0,
                               externalFileAttribute := 0,
                               extraFields := [],
                               comment := { encoding := StringEncoding.utf8, raw := [], alternative := none },
                               dataDescriptor := false } },
                  { header := { vMadeBy := 831,
                                vNeeded := 20,
                                flags := { encrypted := false, dataDescriptor := true, filenameUnicode := true },
                                compression := 8,
                                modTime := 0,
                                modDate := 0,
                                crc := 1259076923,
                                compressedSize := 4294967295,
                                uncompressedSize := 4294967295,
                                fileNameLength := 1,
                                extraFieldLength := 28,
                                fileCommentLength := 0,
                                diskStart := 0,
                                interAttr := 0,
                                exterAttr := 27525120,
                                lhOffset := 4294967295 },
                    entry := { filename := { encoding := StringEncoding.utf8, raw := [98], alternative := none },
                               compression := Compression.deflate,
                               compressionLevel := Level.default,
                               crc32 := 1259076923,
                               uncompressedSize := 3,
                               compressedSize := 0,
                               attributeCompatibility := AttributeCompatibility.unix,
                               lastModificationDate := { date := 0, time := 0 },
                               internalFileAttribute := 0,
                               externalFileAttribute := 27525120,
                               extraFields := [ExtraField.zip64
                                                 { headerId := 1,
                                                   uncompressedSize := some 3,
                                                   compressedSize := some 8,
                                                   relativeHeaderOffset := some 90,
                                                   diskStartNumber := none }],
                               comment := { encoding := StringEncoding.utf8, raw := [], alternative := none },
                               dataDescriptor := false } }],
    forceNoZip64 := false,
    isZip64 := true,
    commentOpt := some { bytes := [99], valid := by decide } }

/-- The archive. -/
def programBytes : Bytes :=
  [80, 75, 3, 4, 10, 0, 0, 8, 0, 0, 131, 24, 34, 80, 172, 42, 147, 216, 2, 0, 0, 0, 2, 0, 0, 0, 3, 0, 0, 0, 97, 46,
  116, 104, 105, 80, 75, 3, 4, 10, 0, 8, 8, 0, 0, 131, 24, 34, 80, 0, 0, 0, 0, 255, 255, 255, 255, 255, 255, 255, 255,
  3, 0, 20, 0, 97, 46, 116, 1, 0, 16, 0, 0, 0, 0, 0, 0, 0, 0, 0, 0, 0, 0, 0, 0, 0, 0, 0, 1, 2, 80, 75, 3, 4, 20, 0, 8,
  8, 8, 0, 0, 0, 0, 0, 0, 0, 0, 0, 255, 255, 255, 255, 255, 255, 255, 255, 1, 0, 20, 0, 98, 1, 0, 16, 0, 0, 0, 0, 0,
  0, 0, 0, 0, 0, 0, 0, 0, 0, 0, 0, 0, 1, 7, 1, 8, 2, 1, 9, 0, 80, 75, 7, 8, 59, 253, 11, 75, 255, 255, 255, 255, 255,
  255, 255, 255, 80, 75, 3, 4, 80, 75, 1, 2, 63, 3, 10, 0, 0, 8, 0, 0, 131, 24, 34, 80, 172, 42, 147, 216, 2, 0, 0, 0,
  2, 0, 0, 0, 3, 0, 0, 0, 0, 0, 0, 0, 0, 0, 0, 0, 0, 0, 0, 0, 0, 0, 97, 46, 116, 80, 75, 1, 2, 63, 3, 20, 0, 8, 8, 8,
  0, 0, 0, 0, 0, 59, 253, 11, 75, 255, 255, 255, 255, 255, 255, 255, 255, 1, 0, 28, 0, 0, 0, 0, 0, 0, 0, 0, 0, 164, 1,
  255, 255, 255, 255, 98, 1, 0, 24, 0, 3, 0, 0, 0, 0, 0, 0, 0, 8, 0, 0, 0, 0, 0, 0, 0, 90, 0, 0, 0, 0, 0, 0, 0, 80,
  75, 6, 6, 44, 0, 0, 0, 0, 0, 0, 0, 63, 3, 46, 0, 0, 0, 0, 0, 0, 0, 0, 0, 2, 0, 0, 0, 0, 0, 0, 0, 2, 0, 0, 0, 0, 0,
  0, 0, 124, 0, 0, 0, 0, 0, 0, 0, 169, 0, 0, 0, 0, 0, 0, 0, 80, 75, 6, 7, 0, 0, 0, 0, 37, 1, 0, 0, 0, 0, 0, 0, 1, 0,
  0, 0, 80, 75, 5, 6, 0, 0, 0, 0, 2, 0, 2, 0, 124, 0, 0, 0, 169, 0, 0, 0, 1, 0, 99]

theorem program_runs : runOps markCodec fresh program = (programResults, programWriter) := by decide +kernel

theorem program_closes : (closeArchive ⟨programWriter, eager⟩).1 = .ok ⟨programBytes, 1, 0⟩ := by decide +kernel

end AsyncZip.Samples
