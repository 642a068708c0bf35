import Verif.Spec.Local
import Verif.Proofs.Directory
import Verif.Proofs.RoundTrip
/-!
# What stands before the directory
-/

namespace AsyncZip
open Spec

theorem lfh_fields {data : Bytes} {pos : Nat} {h : LocalFileHeader} (hb : h.asSlice = (data.drop (pos + 4)).take 26) :
    (fieldAt data (pos + 6) 2).testBit 3 = h.flags.dataDescriptor ∧ fieldAt data (pos + 8) 2 = h.compression.toNat ∧
    fieldAt data (pos + 10) 2 = h.modTime.toNat ∧ fieldAt data (pos + 12) 2 = h.modDate.toNat ∧
    fieldAt data (pos + 14) 4 = h.crc.toNat ∧ fieldAt data (pos + 18) 4 = h.compressedSize.toNat ∧
    fieldAt data (pos + 22) 4 = h.uncompressedSize.toNat ∧ fieldAt data (pos + 26) 2 = h.fileNameLength.toNat ∧
    fieldAt data (pos + 28) 2 = h.extraFieldLength.toNat := by
  have r16 := fun i hi => (read16 hb (lfh_length h) i hi).symm
  have r32 := fun i hi => (read32 hb (lfh_length h) i hi).symm
  have e := lfh_ofBytes_asSlice h
  refine ⟨?_, (r16 4 (by omega)).trans (congrArg (fun x => x.compression.toNat) e),
    (r16 6 (by omega)).trans (congrArg (fun x => x.modTime.toNat) e),
    (r16 8 (by omega)).trans (congrArg (fun x => x.modDate.toNat) e),
    (r32 10 (by omega)).trans (congrArg (fun x => x.crc.toNat) e),
    (r32 14 (by omega)).trans (congrArg (fun x => x.compressedSize.toNat) e),
    (r32 18 (by omega)).trans (congrArg (fun x => x.uncompressedSize.toNat) e),
    (r16 22 (by omega)).trans (congrArg (fun x => x.fileNameLength.toNat) e),
    (r16 24 (by omega)).trans (congrArg (fun x => x.extraFieldLength.toNat) e)⟩
  have h1 := r16 2 (by omega)
  have h2 : GeneralPurposeFlag.ofU16 (fromLe16 (slice h.asSlice 2 4)) = h.flags := congrArg (fun x => x.flags) e
  rw [flags_ofU16] at h2
  rw [← h2, show pos + 6 = pos + 4 + 2 by omega, h1]

theorem fieldAt32_of_drop {data rest : Bytes} {j : Nat} {n : UInt32} (h : data.drop j = le32 n ++ rest) :
    fieldAt data j 4 = n.toNat := by
  have := read32 (data := data) (take_of_drop h (le32_length n)).symm (le32_length n) 0 (Nat.le_refl _)
  rw [show slice (le32 n) 0 (0 + 4) = le32 n by rfl, fromLe32_le32] at this
  exact this.symm

/-- The bytes of a recorded entry. -/
theorem Good.local_of {force : Bool} {off : Nat} {x a rest : Bytes} {l : Listing} {c : CdEntry} {data : Bytes}
    (g : Good force off x l c) (hdisk : ∀ h fs, LocalHeader force l c h fs → diskFields fs = 0) (hd : data = a ++ (x ++ rest))
    (ha : a.length = off) : LocalOf data off l := by
  obtain ⟨h, fs, extra, hl, hx, hbytes⟩ := g.bytes
  have hlen := extraAsBytes_length hx
  rw [hdisk h fs hl] at hlen
  have h0 : data.drop off = le32 LFH_SIGNATURE ++ (h.asSlice ++ (l.entry.filename.basic ++ (extra ++ (l.stored ++
      (tailBytes force l ++ rest))))) := by
    rw [hd, List.drop_append_of_le_length (Nat.le_of_eq ha.symm), ← ha, List.drop_length, List.nil_append, hbytes, localBytes]
    simp only [List.append_assoc]
  have h1 := drop_append_of_drop h0 (le32_length _)
  have h2 := drop_append_of_drop h1 (lfh_length h)
  have h3 := drop_append_of_drop h2 hl.nameLen.symm
  have h4 := drop_append_of_drop (n := h.extraFieldLength.toNat) h3 (by rw [hl.extraLen]; omega)
  obtain ⟨k1, k2, k3, k4, k5, k6, k7, k8, k9⟩ := lfh_fields (take_of_drop h1 (lfh_length h)).symm
  have hds : dataStart data off = off + 4 + 26 + h.fileNameLength.toNat + h.extraFieldLength.toNat := by
    unfold dataStart
    rw [k8, k9]
  have hs : data.drop (dataStart data off) = l.stored ++ (tailBytes force l ++ rest) := by rw [hds, h4]
  have g' := g.describes
  constructor
  · have := occurs_of_drop h0
    rwa [show le32 LFH_SIGNATURE = sigLocal by decide] at this
  · rw [k8, window, show off + 30 = off + 4 + 26 by omega, take_of_drop h2 hl.nameLen.symm]
  · rw [k2, hl.method, g'.method]
    cases l.entry.compression <;> decide
  · rw [k3, hl.time, g'.time]
  · rw [k4, hl.date, g'.date]
  · rw [k1, hl.flags, g'.flags]
  · intro hw
    rw [k5, (hl.whole hw).1]
  · intro hw hu hc
    rw [k6, k7]
    rcases (hl.whole hw).2 with ⟨_, _, e1, e2, _⟩ | ⟨_, hb | hb, _⟩
    · rw [e1, e2, UInt64.toNat_toUInt32, UInt64.toNat_toUInt32]
      rw [UInt64.le_iff_toNat_le] at hu hc
      rw [Nat.mod_eq_of_lt (Nat.lt_of_le_of_lt hc (by decide)), Nat.mod_eq_of_lt (Nat.lt_of_le_of_lt hu (by decide))]
      exact ⟨rfl, rfl⟩
    · exact absurd hu (UInt64.not_le.2 hb)
    · exact absurd hc (UInt64.not_le.2 hb)
  · exact occurs_of_drop hs
  · intro hst
    have h5 := drop_append_of_drop hs rfl
    have key : ∀ a b, data.drop (dataStart data off + l.stored.length) = descriptorBytes l.crc a b ++ rest →
        OccursAt data sigDescriptor (dataStart data off + l.stored.length) ∧
        fieldAt data (dataStart data off + l.stored.length + 4) 4 = l.crc.toNat := by
      intro a b hk
      unfold descriptorBytes at hk
      simp only [List.append_assoc] at hk
      refine ⟨?_, ?_⟩
      · have := occurs_of_drop hk
        rwa [show le32 DATA_DESCRIPTOR_SIGNATURE = sigDescriptor by decide] at this
      · have h6 := drop_append_of_drop hk (le32_length _)
        exact fieldAt32_of_drop h6
    unfold tailBytes at h5
    rw [if_pos hst] at h5
    cases force with
    | true => exact key _ _ h5
    | false => exact key _ _ h5

theorem Good.local {force : Bool} {off : Nat} {x a rest : Bytes} {l : Listing} {c : CdEntry} {data : Bytes}
    (g : Good force off x l c) (hno : NoZip64 l.entry.extraFields) (hd : data = a ++ (x ++ rest))
    (ha : a.length = off) : LocalOf data off l :=
  g.local_of (fun _ _ hl => local_disk hl hno) hd ha

end AsyncZip
