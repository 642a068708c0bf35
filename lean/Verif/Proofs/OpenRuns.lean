import Verif.Proofs.Open
import Verif.Proofs.Le
/-!
# Opening well-formed data on the ideal source
-/

namespace AsyncZip
open Spec Rd

theorem drop_append_of_drop {data x rest : Bytes} {pos n : Nat} (h : data.drop pos = x ++ rest) (hn : x.length = n) :
    data.drop (pos + n) = rest := by
  rw [← List.drop_drop, h, ← hn, List.drop_left]

theorem take_of_drop {data x rest : Bytes} {pos n : Nat} (h : data.drop pos = x ++ rest) (hn : x.length = n) :
    (data.drop pos).take n = x := by
  rw [h, ← hn, List.take_left]

/-- `read_exact` of bytes that are there. -/
theorem Runs.exactAt {data x rest : Bytes} {pos n : Nat} (h : data.drop pos = x ++ rest) (hn : x.length = n) :
    Runs (Rd.readExact n) data pos (.ok x) (pos + n) := Runs.readExact (take_of_drop h hn) hn

/-- `read_bytes` of bytes that are there. -/
theorem Runs.bytesAt {data x rest : Bytes} {pos n : Nat} (h : data.drop pos = x ++ rest) (hn : x.length = n) :
    Runs (Rd.readBytes n) data pos (.ok x) (pos + n) := by
  have := Runs.readBytes (take_of_drop h hn)
  rw [hn] at this
  exact this

theorem Runs.liftOk {α : Type} {r : Res α} {a : α} {data : Bytes} {pos : Nat} (h : r = .ok a) :
    Runs (Rd.lift r) data pos (.ok a) pos := by
  rw [h]; exact Runs.lift

theorem Runs.assertSignature {data rest : Bytes} {pos : Nat} {sig : UInt32} (h : data.drop pos = le32 sig ++ rest) :
    Runs (assertSignature sig) data pos (.ok ()) (pos + 4) := by
  refine Runs.bind (Runs.exactAt h rfl) ?_
  exact Runs.ite_pos (fromLe32_le32 sig) Runs.pure

/-- What `cd_record` makes of a header, name, method, extra fields and comment (`src/base/read/mod.rs:171-195`). -/
def cdEntryOf (hd : CentralDirectoryRecord) (name : Bytes) (c : Compression) (fs : List ExtraField) (comment : Bytes) :
    StoredZipEntry :=
  let sizes := getCombinedSizes hd.uncompressedSize hd.compressedSize (getZip64ExtraField fs)
  { entry :=
      { filename := detectFilename name hd.flags.filenameUnicode fs
        compression := c
        compressionLevel := .default
        attributeCompatibility := .unix
        crc32 := hd.crc
        uncompressedSize := sizes.1
        compressedSize := sizes.2
        lastModificationDate := { date := hd.modDate, time := hd.modTime }
        internalFileAttribute := hd.interAttr
        externalFileAttribute := hd.exterAttr
        extraFields := fs
        comment := detectComment comment hd.flags.filenameUnicode fs
        dataDescriptor := hd.flags.dataDescriptor }
    fileOffset := (selectOffset hd.lhOffset (getZip64ExtraField fs)).toNat
    headerSize := 30 + (hd.fileNameLength.toNat + hd.extraFieldLength.toNat) }

theorem Runs.cdHeader {data rest : Bytes} {pos : Nat} {hd : CentralDirectoryRecord} (h : data.drop pos = hd.asSlice ++ rest) :
    Runs CentralDirectoryRecord.fromReader data pos (.ok hd) (pos + 42) := by
  refine Runs.bind (Runs.exactAt h (cdr_length hd)) ?_
  rw [cdr_ofBytes_asSlice]
  exact Runs.pure

theorem Runs.cdRecord {b : Build} {data name xb comment rest : Bytes} {pos : Nat} {hd : CentralDirectoryRecord}
    {c : Compression} {fs : List ExtraField}
    (h : data.drop pos = le32 CDH_SIGNATURE ++ (hd.asSlice ++ (name ++ (xb ++ (comment ++ rest)))))
    (hn : name.length = hd.fileNameLength.toNat) (hx : xb.length = hd.extraFieldLength.toNat)
    (hc : comment.length = hd.fileCommentLength.toNat) (hm : Compression.tryFrom hd.compression = .ok c)
    (hf : parseExtraFields b xb hd.uncompressedSize hd.compressedSize = .ok fs) :
    Runs (cdRecord b) data pos (.ok (cdEntryOf hd name c fs comment))
      (pos + (46 + name.length + xb.length + comment.length)) := by
  have h1 := drop_append_of_drop h rfl
  have h2 := drop_append_of_drop h1 (cdr_length hd)
  have h3 := drop_append_of_drop h2 hn
  have h4 := drop_append_of_drop h3 hx
  unfold AsyncZip.cdRecord
  refine Runs.bind (Runs.assertSignature h) <| Runs.bind (Runs.cdHeader h1) <| Runs.bind (Runs.bytesAt h2 hn) ?_
  rw [hm]
  refine Runs.bind Runs.lift <| Runs.bind (Runs.bytesAt h3 hx) ?_
  rw [hf]
  refine Runs.bind Runs.lift <| Runs.bind (Runs.bytesAt h4 hc) ?_
  have : pos + (46 + name.length + xb.length + comment.length)
      = pos + (le32 CDH_SIGNATURE).length + 42 + hd.fileNameLength.toNat + hd.extraFieldLength.toNat
        + hd.fileCommentLength.toNat := by
    rw [← hn, ← hx, ← hc, le32_length]; omega
  rw [this]
  exact Runs.pure

theorem Runs.cdRecord_panic {b : Build} {data name xb rest : Bytes} {pos : Nat} {hd : CentralDirectoryRecord}
    {c : Compression} {e : Fail}
    (h : data.drop pos = le32 CDH_SIGNATURE ++ (hd.asSlice ++ (name ++ (xb ++ rest))))
    (hn : name.length = hd.fileNameLength.toNat) (hx : xb.length = hd.extraFieldLength.toNat)
    (hm : Compression.tryFrom hd.compression = .ok c)
    (hf : parseExtraFields b xb hd.uncompressedSize hd.compressedSize = .error e) :
    Runs (AsyncZip.cdRecord b) data pos (.error e) (pos + 4 + 42 + hd.fileNameLength.toNat + hd.extraFieldLength.toNat) := by
  have h1 := drop_append_of_drop h rfl
  have h2 := drop_append_of_drop h1 (cdr_length hd)
  have h3 := drop_append_of_drop h2 hn
  unfold AsyncZip.cdRecord
  refine Runs.bind (Runs.assertSignature h) <| Runs.bind (Runs.cdHeader h1) <| Runs.bind (Runs.bytesAt h2 hn) ?_
  rw [hm]
  refine Runs.bind Runs.lift <| Runs.bind (Runs.bytesAt h3 hx) ?_
  rw [hf]
  exact Runs.bind_error Runs.lift

/-- Reading the end record and what it points to: everything up to the directory. -/
theorem Runs.openFile {b : Build} {data comment : Bytes} {j pos pos' : Nat} {eo : EndOfCentralDirectoryHeader}
    {rec : CombinedRecord} {z : Bool} {re : Res (List StoredZipEntry)} (ho : OccursAt data eocdrSig j)
    (hlast : ∀ j', OccursAt data eocdrSig j' → j' ≤ j) (hnear : data.length ≤ j + 67456)
    (hd : (data.drop (j + 4)).take 18 = eo.asSlice)
    (hc : (data.drop (j + 22)).take eo.fileCommLength.toNat = comment)
    (hr : ∀ p, ∃ p', Runs (readCombined b (j + 4) eo) data p (.ok (rec, z)) p')
    (hdisk : rec.diskNumber = rec.diskNumberStartOfCd) (hnum : rec.numEntries = rec.numEntriesOnDisk)
    (hcd : Runs (AsyncZip.cd b rec.numEntries.toNat) data rec.offsetOfStart.toNat re pos') :
    Runs (AsyncZip.openFile b) data pos
      (re.map fun entries => { entries, zip64 := z, comment := ZipString.new comment .utf8 }) pos' := by
  unfold AsyncZip.openFile
  refine Runs.bind_any (locateEocdr_ideal ho hlast hnear pos) fun p1 => ?_
  refine Runs.bind Runs.seekStart ?_
  refine Runs.bind (a := eo) (pos1 := j + 4 + 18) ?_ ?_
  · refine Runs.bind (Runs.readExact hd (eocdr_length eo)) ?_
    rw [eocdr_ofBytes_asSlice]
    exact Runs.pure
  · refine Runs.bind (a := ZipString.new comment .utf8) (pos1 := j + 22 + comment.length) ?_ ?_
    · exact Runs.bind (Runs.readBytes hc) Runs.pure
    · obtain ⟨p2, h2⟩ := hr (j + 22 + comment.length)
      refine Runs.bind h2 ?_
      refine Runs.ite_neg (by rw [hdisk, hnum]; simp) ?_
      refine Runs.bind Runs.seekStart ?_
      cases re with
      | ok es => exact Runs.bind hcd Runs.pure
      | error e => exact Runs.bind_error hcd

theorem Runs.readCombined_near {b : Build} {data : Bytes} {j pos : Nat} {eo : EndOfCentralDirectoryHeader} (h : j < 20) :
    Runs (readCombined b (j + 4) eo) data pos (.ok (CombinedRecord.ofEocdr eo, false)) pos := by
  unfold AsyncZip.readCombined
  refine Runs.ite_pos ?_ Runs.pure
  simp only [ZIP64_EOCDL_LENGTH, SIGNATURE_LENGTH]
  omega

theorem Runs.readCombined_plain {b : Build} {data x : Bytes} {j pos : Nat} {eo : EndOfCentralDirectoryHeader} (h : 20 ≤ j)
    (hx : (data.drop (j - 20)).take 4 = x) (hl : x.length = 4) (hne : x ≠ le32 ZIP64_EOCDL_SIGNATURE) :
    Runs (AsyncZip.readCombined b (j + 4) eo) data pos (.ok (CombinedRecord.ofEocdr eo, false)) (j - 20 + 4) := by
  unfold AsyncZip.readCombined
  refine Runs.ite_neg (by simp only [ZIP64_EOCDL_LENGTH, SIGNATURE_LENGTH]; omega) ?_
  rw [show j + 4 - (ZIP64_EOCDL_LENGTH + SIGNATURE_LENGTH) = j - 20 by
    simp only [ZIP64_EOCDL_LENGTH, SIGNATURE_LENGTH]; omega]
  refine Runs.bind Runs.seekStart (Runs.bind (a := none) ?_ Runs.pure)
  refine Runs.bind (Runs.readExact hx hl) (Runs.ite_pos ?_ Runs.pure)
  intro he
  apply hne
  rw [← he, le32_fromLe32 x hl]

theorem Runs.locatorAt {data rest : Bytes} {pos : Nat} {l : Zip64EndOfCentralDirectoryLocator}
    (h : data.drop pos = le32 ZIP64_EOCDL_SIGNATURE ++ (l.asBytes ++ rest)) :
    Runs Zip64EndOfCentralDirectoryLocator.tryFromReader data pos (.ok (some l)) (pos + 4 + 16) := by
  refine Runs.bind (Runs.exactAt h rfl) (Runs.ite_neg (by simp) ?_)
  refine Runs.bind (Runs.exactAt (drop_append_of_drop h rfl) (z64eocdl_length l)) ?_
  rw [z64eocdl_ofBytes_asBytes]
  exact Runs.pure

theorem Runs.readCombined_zip64 {b : Build} {data rest rest' : Bytes} {j pos : Nat} {eo : EndOfCentralDirectoryHeader}
    {l : Zip64EndOfCentralDirectoryLocator} {z : Zip64EndOfCentralDirectoryRecord} (h : 20 ≤ j)
    (hl : data.drop (j - 20) = le32 ZIP64_EOCDL_SIGNATURE ++ (l.asBytes ++ rest))
    (hfit : l.relativeOffset.toNat + 4 < 2 ^ 64)
    (hz : data.drop (l.relativeOffset.toNat + 4) = z.asBytes ++ rest') :
    Runs (AsyncZip.readCombined b (j + 4) eo) data pos (.ok (CombinedRecord.combine eo z, true))
      (l.relativeOffset.toNat + 4 + 52) := by
  unfold AsyncZip.readCombined
  refine Runs.ite_neg (by simp only [ZIP64_EOCDL_LENGTH, SIGNATURE_LENGTH]; omega) ?_
  rw [show j + 4 - (ZIP64_EOCDL_LENGTH + SIGNATURE_LENGTH) = j - 20 by
    simp only [ZIP64_EOCDL_LENGTH, SIGNATURE_LENGTH]; omega]
  refine Runs.bind Runs.seekStart (Runs.bind (Runs.locatorAt hl) ?_)
  have hadd : addU64 b l.relativeOffset.toNat SIGNATURE_LENGTH = .ok (l.relativeOffset.toNat + 4) := by
    rw [addU64, SIGNATURE_LENGTH, if_pos hfit]
  simp only []
  rw [hadd]
  refine Runs.bind Runs.lift (Runs.bind Runs.seekStart (Runs.bind (a := z) ?_ Runs.pure))
  refine Runs.bind (Runs.exactAt hz (z64eocdr_length z)) ?_
  rw [z64eocdr_ofBytes_asBytes]
  exact Runs.pure

theorem Runs.readCombined_overflow {b : Build} {data rest : Bytes} {j pos : Nat} {eo : EndOfCentralDirectoryHeader}
    {l : Zip64EndOfCentralDirectoryLocator} (h : 20 ≤ j)
    (hl : data.drop (j - 20) = le32 ZIP64_EOCDL_SIGNATURE ++ (l.asBytes ++ rest))
    (hfit : 2 ^ 64 ≤ l.relativeOffset.toNat + 4) (hb : b.overflowChecks = true) :
    Runs (AsyncZip.readCombined b (j + 4) eo) data pos (.error .panic) (j - 20 + 4 + 16) := by
  unfold AsyncZip.readCombined
  refine Runs.ite_neg (by simp only [ZIP64_EOCDL_LENGTH, SIGNATURE_LENGTH]; omega) ?_
  rw [show j + 4 - (ZIP64_EOCDL_LENGTH + SIGNATURE_LENGTH) = j - 20 by
    simp only [ZIP64_EOCDL_LENGTH, SIGNATURE_LENGTH]; omega]
  refine Runs.bind Runs.seekStart (Runs.bind (Runs.locatorAt hl) ?_)
  have hadd : addU64 b l.relativeOffset.toNat SIGNATURE_LENGTH = .error .panic := by
    rw [addU64, SIGNATURE_LENGTH, if_neg (by omega), hb]; rfl
  simp only []
  rw [hadd]
  exact Runs.bind_error Runs.lift

theorem Runs.cd {b : Build} {data : Bytes} {n pos pos' : Nat} {r : Res (List StoredZipEntry)} (h : n ≤ b.maxVecEntries)
    (hl : Runs (cdLoop b n) data pos r pos') : Runs (cd b n) data pos r pos' :=
  Runs.ite_neg (by omega) hl

theorem Runs.cd_capacity {b : Build} {data : Bytes} {n pos : Nat} (h : b.maxVecEntries < n) :
    Runs (AsyncZip.cd b n) data pos (.error .panic) pos := Runs.ite_pos h Runs.fail

theorem Runs.cdLoop_cons {b : Build} {data : Bytes} {n pos pos1 pos' : Nat} {e : StoredZipEntry} {es : List StoredZipEntry}
    (h : Runs (AsyncZip.cdRecord b) data pos (.ok e) pos1) (hl : Runs (cdLoop b n) data pos1 (.ok es) pos') :
    Runs (cdLoop b (n + 1)) data pos (.ok (e :: es)) pos' := Runs.bind h (Runs.bind hl Runs.pure)

theorem Runs.cdLoop_error {b : Build} {data : Bytes} {n pos pos1 : Nat} {e : Fail}
    (h : Runs (AsyncZip.cdRecord b) data pos (.error e) pos1) : Runs (cdLoop b (n + 1)) data pos (.error e) pos1 :=
  Runs.bind_error h

/-- Occurrences in concrete data, decided by looking at every position. -/
theorem lastEnd_of_decide {data : Bytes} {j : Nat}
    (h : (OccursAt data eocdrSig j ∧ ∀ j' < data.length, OccursAt data eocdrSig j' → j' ≤ j)) :
    OccursAt data eocdrSig j ∧ ∀ j', OccursAt data eocdrSig j' → j' ≤ j :=
  ⟨h.1, fun j' hj => h.2 j' (by have := occursAt_bound hj (by decide); simp [eocdrSig] at this; omega) hj⟩

end AsyncZip
