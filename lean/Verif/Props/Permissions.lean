import Verif.Props.Metadata
import Verif.Props.Opening
import Verif.Props.Openable
import Verif.Proofs.Samples
import Verif.Proofs.Sequential
/-!
# C91: the permissions of entries that are read
-/

namespace AsyncZip
open Spec Rd

/-- The upper half of a field of four bytes is the field of two bytes in its second half. -/
theorem fieldAt_high (b : Bytes) (i : Nat) : fieldAt b i 4 / 2 ^ 16 = fieldAt b (i + 2) 2 := by
  have h := fieldAt_add b i 2 2
  have hl := fieldAt_lt' b i 2
  rw [h]
  omega

theorem Records.each {data : Bytes} {off : Nat} {es : List StoredZipEntry} (h : Records data off es) :
    ∀ e ∈ es, ∃ off', RecordAt data off' e := by
  induction h with
  | nil off => intro e he; cases he
  | cons off e es h hs ih =>
    intro x hx
    rcases List.mem_cons.1 hx with rfl | hx
    · exact ⟨off, h⟩
    · exact ih x hx

/-- C91 (partial). Every entry of an opened archive reports as its permissions the upper half of the external attributes of its
directory record, which is where they are if the record names Unix (3) as the host. Missing: that none are reported for other
hosts, which is false (`C91_host_fails`), and entries read from a stream (`C91_stream_fails`). -/
theorem C91_reported_partial (b : Build) (s s' : RState) (f : ZipFile) (h : openFile b s = (.ok f, s'))
    (hfit : ∀ j, LastEnd s.data j → HasLocator s.data j → zip64End s.data j + 4 < 2 ^ 64) :
    ∀ e ∈ f.entries, ∃ off m, RecordAt s.data off e ∧ e.entry.unixPermissions = some m ∧
      m.toNat = fieldAt s.data (off + 40) 2 := by
  obtain ⟨j, _, _, _, _, _, _, hr, _⟩ := C19_entries b s s' f h hfit
  intro e he
  obtain ⟨off, ho⟩ := Records.each hr e he
  obtain ⟨m, hm, hv⟩ := C13_permissions_of_attribute e.entry
  refine ⟨off, m, ho, hm, ?_⟩
  rw [hv, ho.external]
  exact fieldAt_high _ _

namespace Samples

/-- `one` as made on DOS (host 0), with the archive attribute of DOS (0x20) set. -/
def dos : Bytes := [
    80, 75, 3, 4, 20, 0, 0, 0, 0, 0, 131, 24, 34, 80, 172, 42, 147, 216, 2, 0, 0, 0, 2, 0,
    0, 0, 5, 0, 6, 0, 97, 46, 116, 120, 116, 153, 119, 2, 0, 1, 2, 104, 105, 80, 75, 1, 2, 20,
    0, 20, 0, 0, 0, 0, 0, 131, 24, 34, 80, 172, 42, 147, 216, 2, 0, 0, 0, 2, 0, 0, 0, 5,
    0, 6, 0, 2, 0, 0, 0, 0, 0, 32, 0, 0, 0, 0, 0, 0, 0, 97, 46, 116, 120, 116, 153, 119,
    2, 0, 1, 2, 111, 107, 80, 75, 5, 6, 0, 0, 0, 0, 1, 0, 1, 0, 59, 0, 0, 0, 43, 0,
    0, 0, 1, 0, 99]

theorem dos_end : OccursAt dos eocdrSig 102 ∧ ∀ j', OccursAt dos eocdrSig j' → j' ≤ 102 :=
  lastEnd_of_decide (by unfold OccursAt; decide +kernel)

/-- The directory header of `dos`. -/
def dosHeader : CentralDirectoryRecord := { oneHeader with vMadeBy := 20, exterAttr := 32 }

/-- What `dos` contains. -/
def dosFile : ZipFile :=
  { entries := [cdEntryOf dosHeader [97, 46, 116, 120, 116] .stored [.unknown ⟨0x7799, 2, [1, 2]⟩] [111, 107]]
    zip64 := false
    comment := ⟨.utf8, [99], none⟩ }

theorem dos_opens (b : Build) (hb : 1 ≤ b.maxVecEntries) (pos : Nat) :
    Runs (openFile b) dos pos (.ok dosFile) 102 := by
  refine Runs.openFile (re := .ok dosFile.entries) (comment := [99]) (eo := oneEnd) dos_end.1 dos_end.2 (by decide +kernel)
    (by decide +kernel) (by decide +kernel)
    (fun p => ⟨_, Runs.readCombined_plain (by decide) rfl (by decide +kernel) (by decide +kernel)⟩) rfl rfl
    (Runs.cd hb ?_)
  refine Runs.cdLoop_cons (Runs.cdRecord (rest := dos.drop 102) (xb := [153, 119, 2, 0, 1, 2]) (by decide +kernel)
    rfl rfl rfl rfl (oneExtra b)) Runs.pure

end Samples

/-- C91 is not so for archives made elsewhere: "This will return None if the attribute host compatibility is not listed as Unix",
but the host that the archive names is not looked at. An entry made on DOS reports Unix permissions 000. -/
theorem C91_host_fails (b : Build) (hb : 1 ≤ b.maxVecEntries) :
    (∀ e ∈ Samples.dosFile.entries, RecordAt Samples.dos 43 e ∧ fieldAt Samples.dos (43 + 5) 1 = 0 ∧
      e.entry.attributeCompatibility = .unix ∧ e.entry.unixPermissions = some 0) ∧ Samples.dosFile.entries.length = 1 ∧
    ∃ s', openFile b ⟨Samples.dos, 0, none, []⟩ = (.ok Samples.dosFile, s') := by
  obtain ⟨l, h⟩ := Samples.dos_opens b hb 0 []
  refine ⟨?_, rfl, _, h⟩
  have hj : ∀ j, LastEnd Samples.dos j → j = 102 := by
    intro j hj
    have h1 := hj.2 102 Samples.dos_end.1
    have h2 := Samples.dos_end.2 j hj.1
    omega
  have hno : ¬ HasLocator Samples.dos 102 := by decide +kernel
  obtain ⟨j, h1, _, _, _, _, _, hr, _⟩ := C19_entries _ _ _ _ h (fun j h hl => absurd (hj j h ▸ hl) hno)
  have := hj j h1
  subst this
  intro e he
  have hd : declaredOffset Samples.dos 102 = 43 := by decide +kernel
  rw [hd] at hr
  have hl : Samples.dosFile.entries = [Samples.dosFile.entries.head (by decide)] := rfl
  rw [hl, List.mem_singleton] at he
  subst he
  cases hr with
  | cons _ _ _ h0 _ => exact ⟨h0, by decide +kernel, rfl, by decide⟩

/-- C91 is not so for entries read from a stream either: whatever the archive, they report permissions 000, as local headers
have no attributes. -/
theorem C91_stream_fails (b : Build) (s s' : RState) (r : Reading) (h : streamNext b s = (.ok (some r), s')) :
    r.entry.unixPermissions = some 0 := by
  have := (C75_shown b s s' r h).1.attributes.2
  unfold ZipEntry.unixPermissions
  rw [this]
  rfl

/-- Opened, the entry of `one` has permissions 644; read from a stream, 000. -/
example : (∃ e ∈ Samples.oneFile.entries, e.entry.unixPermissions = some 0o644) ∧
    ∃ r s', streamNext ⟨true, 1⟩ ⟨Samples.one, 0, none, []⟩ = (.ok (some r), s') ∧ r.entry.unixPermissions = some 0 := by
  refine ⟨⟨_, List.mem_singleton.2 rfl, by decide⟩, ?_⟩
  have h1 : (match (streamNext ⟨true, 1⟩ ⟨Samples.one, 0, none, []⟩).1 with | .ok (some _) => true | _ => false) = true := by
    decide +kernel
  rcases hr : streamNext ⟨true, 1⟩ ⟨Samples.one, 0, none, []⟩ with ⟨_ | (_ | r), s'⟩
  · rw [hr] at h1; cases h1
  · rw [hr] at h1; cases h1
  · exact ⟨r, s', rfl, C91_stream_fails _ _ _ _ hr⟩

end AsyncZip
