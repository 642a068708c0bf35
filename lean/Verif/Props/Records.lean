import Verif.Proofs.Layout
/-!
# C01, C02, C03: fixed-size records
-/

namespace AsyncZip
open Spec

/-! ## C01: records survive a write/read cycle -/

/-- C01. Every local file header decodes to itself, in exactly the 26 bytes the reader asks for. -/
theorem C01_local_file_header (h : LocalFileHeader) :
    h.asSlice.length = 26 ∧ LocalFileHeader.ofBytes h.asSlice = h := ⟨lfh_length h, lfh_ofBytes_asSlice h⟩

/-- C01. Every central directory record decodes to itself. -/
theorem C01_central_directory_record (h : CentralDirectoryRecord) :
    h.asSlice.length = 42 ∧ CentralDirectoryRecord.ofBytes h.asSlice = h := ⟨cdr_length h, cdr_ofBytes_asSlice h⟩

/-- C01. Every end of central directory record decodes to itself. -/
theorem C01_end_of_central_directory (h : EndOfCentralDirectoryHeader) :
    h.asSlice.length = 18 ∧ EndOfCentralDirectoryHeader.ofBytes h.asSlice = h :=
  ⟨eocdr_length h, eocdr_ofBytes_asSlice h⟩

/-- C01. Every ZIP64 end of central directory record decodes to itself. -/
theorem C01_zip64_end_record (h : Zip64EndOfCentralDirectoryRecord) :
    h.asBytes.length = 52 ∧ Zip64EndOfCentralDirectoryRecord.ofBytes h.asBytes = h :=
  ⟨z64eocdr_length h, z64eocdr_ofBytes_asBytes h⟩

/-- C01. Every ZIP64 locator decodes to itself. -/
theorem C01_zip64_locator (h : Zip64EndOfCentralDirectoryLocator) :
    h.asBytes.length = 16 ∧ Zip64EndOfCentralDirectoryLocator.ofBytes h.asBytes = h :=
  ⟨z64eocdl_length h, z64eocdl_ofBytes_asBytes h⟩

/-- Reassemble a byte string from the slices a decoder looks at. -/
local macro "reassemble" : tactic => `(tactic|
  (simp (discharger := simp_all [slice_length]) only [le16_fromLe16, le32_fromLe32, le64_fromLe64, flags_reencode,
     slice_append_slice, Nat.reduceLeDiff]))

/-- C01, converse. Any 26 bytes are the encoding of what they decode to, up to the flag bits the crate ignores. -/
theorem C01_local_file_header_converse (v : Bytes) (hv : v.length = 26) :
    (LocalFileHeader.ofBytes v).asSlice = slice v 0 2 ++ le16 (fromLe16 (slice v 2 4) &&& 0x809) ++ slice v 4 26 := by
  simp only [LocalFileHeader.ofBytes, LocalFileHeader.asSlice, List.append_assoc]
  reassemble

/-- C01, converse, central directory record. -/
theorem C01_central_directory_record_converse (v : Bytes) (hv : v.length = 42) :
    (CentralDirectoryRecord.ofBytes v).asSlice
      = slice v 0 4 ++ le16 (fromLe16 (slice v 4 6) &&& 0x809) ++ slice v 6 42 := by
  simp only [CentralDirectoryRecord.ofBytes, CentralDirectoryRecord.asSlice]
  rw [le16_fromLe16 (slice v 0 2) (by simp [slice, hv]), le16_fromLe16 (slice v 2 4) (by simp [slice, hv]),
    slice_append_slice v 0 2 4 (by omega) (by omega)]
  simp only [List.append_assoc]
  reassemble

/-- C01, converse, end of central directory record. -/
theorem C01_end_of_central_directory_converse (v : Bytes) (hv : v.length = 18) :
    (EndOfCentralDirectoryHeader.ofBytes v).asSlice = v := by
  simp only [EndOfCentralDirectoryHeader.ofBytes, EndOfCentralDirectoryHeader.asSlice]
  reassemble
  exact slice_all v 18 hv

/-- C01, converse, ZIP64 end record. -/
theorem C01_zip64_end_record_converse (v : Bytes) (hv : v.length = 52) :
    (Zip64EndOfCentralDirectoryRecord.ofBytes v).asBytes = v := by
  simp only [Zip64EndOfCentralDirectoryRecord.ofBytes, Zip64EndOfCentralDirectoryRecord.asBytes]
  reassemble
  exact slice_all v 52 hv

/-- C01, converse, ZIP64 locator. -/
theorem C01_zip64_locator_converse (v : Bytes) (hv : v.length = 16) :
    (Zip64EndOfCentralDirectoryLocator.ofBytes v).asBytes = v := by
  simp only [Zip64EndOfCentralDirectoryLocator.ofBytes, Zip64EndOfCentralDirectoryLocator.asBytes]
  reassemble
  exact slice_all v 16 hv

/-- A header with every field distinct and non-zero. -/
def sampleLfh : LocalFileHeader :=
  { version := 20, flags := ⟨false, true, true⟩, compression := 8, modTime := 0x1234, modDate := 0x5678, crc := 0xDEADBEEF
    compressedSize := 0x01020304, uncompressedSize := 0x0A0B0C0D, fileNameLength := 7, extraFieldLength := 9 }

/-- C01 is about non-trivial byte strings: the converse's hypothesis is met by a real header, whose flags survive. -/
example : (sampleLfh.asSlice).length = 26 ∧ sampleLfh.asSlice.take 4 = [20, 0, 8, 8] ∧
    LocalFileHeader.ofBytes sampleLfh.asSlice = sampleLfh := by decide
example : ∃ v : Bytes, v.length = 18 ∧ (EndOfCentralDirectoryHeader.ofBytes v).centDirOffset = 0x0D0C0B0A :=
  ⟨[0, 0, 0, 0, 1, 0, 1, 0, 5, 0, 0, 0, 0xA, 0xB, 0xC, 0xD, 0, 0], by decide⟩

/-! ## C02: layout -/

/-- Evaluate one row of a layout table. -/
local macro "rows" : tactic => `(tactic|
  (refine ⟨by simp, ?_⟩
   simp only [List.forall_mem_cons, List.not_mem_nil, false_implies, implies_true, and_true]
   (repeat' apply And.intro) <;>
     first
     | omega
     | (rw [fieldAt_eq _ _ _ (by simp)]
        simp only [Nat.reduceAdd]
        slices
        simp only [leNat_le16, leNat_le32, leNat_le64, leNat_flags]
        all_goals rfl)))

/-- APPNOTE 4.3.7. -/
def lfhTable (h : LocalFileHeader) : List Field :=
  [⟨0, 4, 0x04034b50⟩, ⟨4, 2, h.version.toNat⟩,
   ⟨6, 2, flagWord h.flags.encrypted h.flags.dataDescriptor h.flags.filenameUnicode⟩, ⟨8, 2, h.compression.toNat⟩,
   ⟨10, 2, h.modTime.toNat⟩, ⟨12, 2, h.modDate.toNat⟩, ⟨14, 4, h.crc.toNat⟩, ⟨18, 4, h.compressedSize.toNat⟩,
   ⟨22, 4, h.uncompressedSize.toNat⟩, ⟨26, 2, h.fileNameLength.toNat⟩, ⟨28, 2, h.extraFieldLength.toNat⟩]

/-- APPNOTE 4.3.12. -/
def cdrTable (h : CentralDirectoryRecord) : List Field :=
  [⟨0, 4, 0x02014b50⟩, ⟨4, 2, h.vMadeBy.toNat⟩, ⟨6, 2, h.vNeeded.toNat⟩,
   ⟨8, 2, flagWord h.flags.encrypted h.flags.dataDescriptor h.flags.filenameUnicode⟩, ⟨10, 2, h.compression.toNat⟩,
   ⟨12, 2, h.modTime.toNat⟩, ⟨14, 2, h.modDate.toNat⟩, ⟨16, 4, h.crc.toNat⟩, ⟨20, 4, h.compressedSize.toNat⟩,
   ⟨24, 4, h.uncompressedSize.toNat⟩, ⟨28, 2, h.fileNameLength.toNat⟩, ⟨30, 2, h.extraFieldLength.toNat⟩,
   ⟨32, 2, h.fileCommentLength.toNat⟩, ⟨34, 2, h.diskStart.toNat⟩, ⟨36, 2, h.interAttr.toNat⟩,
   ⟨38, 4, h.exterAttr.toNat⟩, ⟨42, 4, h.lhOffset.toNat⟩]

/-- APPNOTE 4.3.16. -/
def eocdrTable (h : EndOfCentralDirectoryHeader) : List Field :=
  [⟨0, 4, 0x06054b50⟩, ⟨4, 2, h.diskNum.toNat⟩, ⟨6, 2, h.startCentDirDisk.toNat⟩, ⟨8, 2, h.numOfEntriesDisk.toNat⟩,
   ⟨10, 2, h.numOfEntries.toNat⟩, ⟨12, 4, h.sizeCentDir.toNat⟩, ⟨16, 4, h.centDirOffset.toNat⟩,
   ⟨20, 2, h.fileCommLength.toNat⟩]

/-- APPNOTE 4.3.14. -/
def zip64EndTable (h : Zip64EndOfCentralDirectoryRecord) : List Field :=
  [⟨0, 4, 0x06064b50⟩, ⟨4, 8, h.sizeOfRecord.toNat⟩, ⟨12, 2, h.versionMadeBy.toNat⟩, ⟨14, 2, h.versionNeeded.toNat⟩,
   ⟨16, 4, h.diskNumber.toNat⟩, ⟨20, 4, h.diskNumberStartOfCd.toNat⟩, ⟨24, 8, h.numEntriesOnDisk.toNat⟩,
   ⟨32, 8, h.numEntries.toNat⟩, ⟨40, 8, h.directorySize.toNat⟩, ⟨48, 8, h.offsetOfStart.toNat⟩]

/-- APPNOTE 4.3.15. -/
def zip64LocatorTable (h : Zip64EndOfCentralDirectoryLocator) : List Field :=
  [⟨0, 4, 0x07064b50⟩, ⟨4, 4, h.numberOfDisk.toNat⟩, ⟨8, 8, h.relativeOffset.toNat⟩, ⟨16, 4, h.totalNumberOfDisks.toNat⟩]

/-- C02. Local file header, signature included: 30 bytes laid out as APPNOTE 4.3.7 says, with no gaps. -/
theorem C02_local_file_header (h : LocalFileHeader) :
    Conforms (le32 LFH_SIGNATURE ++ h.asSlice) 30 (lfhTable h) ∧ Tiles 0 (lfhTable h) 30 := by
  refine ⟨?_, by simp [Tiles, lfhTable]⟩
  unfold LocalFileHeader.asSlice lfhTable
  rows

/-- C02. Central directory record (APPNOTE 4.3.12). -/
theorem C02_central_directory_record (h : CentralDirectoryRecord) :
    Conforms (le32 CDH_SIGNATURE ++ h.asSlice) 46 (cdrTable h) ∧ Tiles 0 (cdrTable h) 46 := by
  refine ⟨?_, by simp [Tiles, cdrTable]⟩
  unfold CentralDirectoryRecord.asSlice cdrTable
  rows

/-- C02. End of central directory record (APPNOTE 4.3.16). -/
theorem C02_end_of_central_directory (h : EndOfCentralDirectoryHeader) :
    Conforms (le32 EOCDR_SIGNATURE ++ h.asSlice) 22 (eocdrTable h) ∧ Tiles 0 (eocdrTable h) 22 := by
  refine ⟨?_, by simp [Tiles, eocdrTable]⟩
  unfold EndOfCentralDirectoryHeader.asSlice eocdrTable
  rows

/-- C02. ZIP64 end of central directory record (APPNOTE 4.3.14). -/
theorem C02_zip64_end_record (h : Zip64EndOfCentralDirectoryRecord) :
    Conforms (le32 ZIP64_EOCDR_SIGNATURE ++ h.asBytes) 56 (zip64EndTable h) ∧ Tiles 0 (zip64EndTable h) 56 := by
  refine ⟨?_, by simp [Tiles, zip64EndTable]⟩
  unfold Zip64EndOfCentralDirectoryRecord.asBytes zip64EndTable
  rows

/-- C02. ZIP64 end of central directory locator (APPNOTE 4.3.15). -/
theorem C02_zip64_locator (h : Zip64EndOfCentralDirectoryLocator) :
    Conforms (le32 ZIP64_EOCDL_SIGNATURE ++ h.asBytes) 20 (zip64LocatorTable h) ∧
      Tiles 0 (zip64LocatorTable h) 20 := by
  refine ⟨?_, by simp [Tiles, zip64LocatorTable]⟩
  unfold Zip64EndOfCentralDirectoryLocator.asBytes zip64LocatorTable
  rows

/-- C02 on a concrete header: the CRC sits little-endian at offset 14. -/
example : ((le32 LFH_SIGNATURE ++ sampleLfh.asSlice).drop 14).take 4 = [0xEF, 0xBE, 0xAD, 0xDE] := by decide

/-! ## C03: general purpose flags -/

/-- C03. The emitted flag word has bit 0, 3, 11 set exactly as the three flags say, and no other bit. -/
theorem C03_flags_encode (f : GeneralPurposeFlag) (i : Nat) :
    (fieldAt f.asSlice 0 2).testBit i
      = ((i == 0 && f.encrypted) || (i == 3 && f.dataDescriptor) || (i == 11 && f.filenameUnicode)) := by
  have hlt : fieldAt f.asSlice 0 2 < 2 ^ 12 := by
    rcases f with ⟨_ | _, _ | _, _ | _⟩ <;> decide
  by_cases hi : i < 12
  · have : ∀ j : Fin 12, (fieldAt f.asSlice 0 2).testBit j
        = ((j.1 == 0 && f.encrypted) || (j.1 == 3 && f.dataDescriptor) || (j.1 == 11 && f.filenameUnicode)) := by
      rcases f with ⟨_ | _, _ | _, _ | _⟩ <;> decide
    exact this ⟨i, hi⟩
  · have h1 : (fieldAt f.asSlice 0 2).testBit i = false :=
      Nat.testBit_lt_two_pow (Nat.lt_of_lt_of_le hlt (Nat.pow_le_pow_right (by omega) (by omega)))
    have : (i == 0) = false ∧ (i == 3) = false ∧ (i == 11) = false := by
      simp only [beq_eq_false_iff_ne]; omega
    simp [h1, this]

/-- C03. Decoding looks at bits 0, 3 and 11 only, for every 16-bit word. -/
theorem C03_flags_decode (v : UInt16) :
    (GeneralPurposeFlag.ofU16 v).encrypted = v.toNat.testBit 0 ∧
    (GeneralPurposeFlag.ofU16 v).dataDescriptor = v.toNat.testBit 3 ∧
    (GeneralPurposeFlag.ofU16 v).filenameUnicode = v.toNat.testBit 11 := by
  rw [flags_ofU16]; simp

example : GeneralPurposeFlag.ofU16 0xFFF6 = ⟨false, false, true⟩ := by decide
example : (⟨true, false, true⟩ : GeneralPurposeFlag).asSlice = [0x01, 0x08] := by decide

end AsyncZip
