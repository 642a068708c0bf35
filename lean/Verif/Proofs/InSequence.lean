import Verif.Proofs.Sequential
import Verif.Proofs.Independent
/-!
# The sequential reader on written archives
-/

namespace AsyncZip
open Spec Rd

theorem width_of_zip64 {us cs : UInt32} {fs : List ExtraField} (wf : ∀ f ∈ fs, WellFormed us cs f) {z : Zip64Field}
    (h : getZip64ExtraField fs = some z) : descriptorWidth (fs.map blockOf) = 8 := by
  have hm := getZip64_mem h
  have : z.headerId = 1 := (wf _ hm).1
  unfold descriptorWidth
  rw [if_pos]
  rw [List.any_eq_true]
  exact ⟨_, List.mem_map_of_mem hm, by simp [blockOf, fieldId, this]⟩

theorem width_of_none {us cs : UInt32} {fs : List ExtraField} (wf : ∀ f ∈ fs, WellFormed us cs f) (h : NoZip64 fs) :
    descriptorWidth (fs.map blockOf) = 4 := by
  unfold descriptorWidth
  rw [if_neg]
  rw [List.any_eq_true]
  rintro ⟨_, hb, he⟩
  obtain ⟨f, hf, rfl⟩ := List.mem_map.1 hb
  have he := of_decide_eq_true he
  cases f with
  | zip64 z => exact h _ hf z rfl
  | unicodeComment i => exact absurd he (show ID_UCOM.toNat ≠ 1 by decide)
  | unicodePath i => exact absurd he (show ID_UPATH.toNat ≠ 1 by decide)
  | unknown g =>
    have hg : g.headerId ≠ 1 := (wf _ hf).1
    exact hg (UInt16.toNat_inj.1 he)

theorem lfh_plain {data : Bytes} {pos : Nat} {h : LocalFileHeader} (hb : h.asSlice = (data.drop (pos + 4)).take 26) :
    (fieldAt data (pos + 6) 2).testBit 0 = h.flags.encrypted := by
  have h1 := read16 hb (lfh_length h) 2 (by omega)
  have h2 : GeneralPurposeFlag.ofU16 (fromLe16 (slice h.asSlice 2 4)) = h.flags :=
    congrArg (fun x => x.flags) (lfh_ofBytes_asSlice h)
  rw [flags_ofU16] at h2
  rw [← h2, show pos + 6 = pos + 4 + 2 by omega, ← h1]

theorem u32_small {a : UInt64} (h : a ≤ 0xFFFFFFFF) : a.toUInt32.toNat = a.toNat := by
  rw [UInt64.toNat_toUInt32]
  rw [UInt64.le_iff_toNat_le] at h
  exact Nat.mod_eq_of_lt (Nat.lt_of_le_of_lt h (by decide))

/-- An entry of a written archive, to the sequential reader. -/
theorem Good.part {C : Codec} {force : Bool} {off : Nat} {x a rest d : Bytes} {l : Listing} {c : CdEntry} {data : Bytes}
    (g : Good force off x l c) (hown : ∀ f ∈ l.entry.extraFields, OwnField f) (hd : data = a ++ (x ++ rest))
    (ha : a.length = off) (hlen : data.length < 2 ^ 64) (hcrc : l.crc = crc32 d) (hh : Holds C l d) :
    OccursAt data sigLocal off ∧ 30 ≤ x.length ∧
    (InSequence force l d → ∃ p, Spec.part C data off = some (p, off + x.length) ∧ ShowsPart l d p) ∧
    (¬ InSequence force l d → Spec.part C data off = none) := by
  have hno := own_noZip64 hown
  have hloc := g.local hno hd ha
  have hg := g.describes
  have hsm := g.small
  obtain ⟨h, fs, extra, hl, hx, hbytes⟩ := g.bytes
  have hel := extraAsBytes_length hx
  rw [local_disk hl hno] at hel
  have h0 : data.drop off = le32 LFH_SIGNATURE ++ (h.asSlice ++ (l.entry.filename.basic ++ (extra ++ (l.stored ++
      (tailBytes force l ++ rest))))) := by
    rw [hd, List.drop_append_of_le_length (Nat.le_of_eq ha.symm), ← ha, List.drop_length, List.nil_append, hbytes, localBytes]
    simp only [List.append_assoc]
  have h1 := drop_append_of_drop h0 (le32_length _)
  have h2 := drop_append_of_drop h1 (lfh_length h)
  have h3 := drop_append_of_drop h2 hl.nameLen.symm
  have h4 := drop_append_of_drop (n := h.extraFieldLength.toNat) h3 (by rw [hl.extraLen]; omega)
  obtain ⟨k1, k2, k3, k4, k5, k6, k7, k8, k9⟩ := lfh_fields (take_of_drop h1 (lfh_length h)).symm
  have k0 := lfh_plain (take_of_drop h1 (lfh_length h)).symm
  have hds : dataStart data off = off + 4 + 26 + h.fileNameLength.toNat + h.extraFieldLength.toNat := by
    unfold dataStart
    rw [k8, k9]
  have hs : data.drop (dataStart data off) = l.stored ++ (tailBytes force l ++ rest) := by rw [hds, h4]
  have hxl : x.length = 30 + l.entry.filename.basic.length + extra.length + l.stored.length + (tailBytes force l).length := by
    rw [hbytes, localBytes]
    simp only [List.length_append, lfh_length, le32_length]
    omega
  have hdl := congrArg List.length hd
  simp only [List.length_append] at hdl
  have e1 := hl.nameLen
  have e2 := hl.extraLen
  obtain ⟨wf, _, _, hsz⟩ := hl.decodes hown
  have hwin : window data (off + 30 + fieldAt data (off + 26) 2) (fieldAt data (off + 28) 2) = extra := by
    rw [k8, k9, window, show off + 30 = off + 4 + 26 by omega]
    exact take_of_drop h3 (by rw [hl.extraLen]; omega)
  have hbl : blocksOf data.length (window data (off + 30 + fieldAt data (off + 26) 2) (fieldAt data (off + 28) 2))
      = some (fs.map blockOf) := by
    rw [hwin]
    refine blocksOf_of (blocks_of_fields wf hx) rfl ?_
    rw [← hwin, window, List.length_take, List.length_drop]
    omega
  have hpl : (fieldAt data (off + 6) 2).testBit 0 = false := by rw [k0, hl.flags, hg.flags]
  have hst : dataStart data off + l.stored.length + (tailBytes force l).length = off + x.length := by omega
  have hcs : l.cs.toNat = l.stored.length := by
    rw [Listing.cs, UInt64.toNat_ofNat', Nat.mod_eq_of_lt (by omega)]
  refine ⟨hloc.signature, by omega, ?_⟩
  unfold Spec.part
  rw [if_neg (Decidable.not_not.2 ⟨hloc.signature, hpl, by omega⟩), methodOf_of hloc.method, hbl]
  simp only
  rw [hloc.streamed]
  cases hstr : l.streamed with
  | false =>
    have ht : tailBytes force l = [] := by unfold tailBytes; rw [hstr]; rfl
    rw [ht, List.length_nil, Nat.add_zero] at hst
    obtain ⟨t1, t2, _⟩ := trueValues (O := 0) (fun z hz => wf _ (getZip64_mem hz)) (hsz hstr) rfl
    simp only [Bool.false_eq_true, if_false]
    rw [k6, k7, zip64Content_fields wf, ← t1, ← t2, hcs, Holds.entryData hh hs, hloc.crc hstr, hcrc, hst]
    constructor
    · intro hi
      rw [if_pos ⟨by omega, rfl, rfl, hi.1.symm, rfl⟩]
      exact ⟨_, rfl, hloc.name, rfl, hloc.time, hloc.date, rfl, hi.1, rfl, hstr.symm, rfl⟩
    · intro hi
      rw [if_neg]
      rintro ⟨_, _, _, h, _⟩
      exact hi ⟨h.symm, fun h => by rw [hstr] at h; cases h⟩
  | true =>
    simp only [if_true]
    by_cases hm : l.entry.compression = .stored
    · rw [if_pos hm]
      exact ⟨fun hi => absurd hm (hi.2 hstr).2.1, fun _ => rfl⟩
    rw [if_neg hm]
    have hdec : C.decode l.entry.compression (data.drop (dataStart data off)) = ⟨d, l.stored.length, true⟩ := by
      rcases hh with ⟨h1, _⟩ | ⟨_, h2⟩
      · exact absurd h1 hm
      · rw [hs]; exact h2 _
    obtain ⟨d1, d2⟩ := hloc.descriptor hstr
    have hbody : descriptorBody data (dataStart data off + l.stored.length) = dataStart data off + l.stored.length + 4 := by
      unfold descriptorBody
      rw [if_pos d1]
    have h5 := drop_append_of_drop hs rfl
    rw [hdec]
    simp only [hbody, d2, hcrc]
    cases force with
    | true =>
      have ht : tailBytes true l = descriptorBytes l.crc l.us.toUInt32 l.cs.toUInt32 := by unfold tailBytes; rw [hstr]; rfl
      rw [ht] at h5 hst
      simp only [descriptorBytes, List.append_assoc, List.length_append, le32_length] at h5 hst
      have h6 := drop_append_of_drop h5 (le32_length _)
      have h7 := drop_append_of_drop h6 (le32_length _)
      have h8 := drop_append_of_drop h7 (le32_length _)
      have f1 := fieldAt32_of_drop h7
      have f2 := fieldAt32_of_drop h8
      obtain ⟨s1, s2, _⟩ := hsm rfl
      rw [u32_small s1] at f1
      rw [u32_small s2, hcs] at f2
      have hw : descriptorWidth (fs.map blockOf) = 4 := by
        refine width_of_none wf ?_
        rw [(hl.stream hstr).2.2]
        exact noZip64_withUnicode hno
      rw [hw, f1, f2, show dataStart data off + l.stored.length + 4 + 4 + 2 * 4 = off + x.length by omega]
      constructor
      · intro hi
        obtain ⟨_, _, i3⟩ := hi.2 hstr
        rw [if_pos ⟨trivial, by omega, trivial, hi.1.trans i3.symm, i3⟩]
        exact ⟨_, rfl, hloc.name, rfl, hloc.time, hloc.date, rfl, rfl, rfl, hstr.symm, rfl⟩
      · intro hi
        rw [if_neg]
        rintro ⟨_, _, _, i4, i5⟩
        exact hi ⟨i4.trans i5, fun _ => ⟨rfl, hm, i5⟩⟩
    | false =>
      have ht : tailBytes false l = descriptorBytes l.crc NON_ZIP64_MAX_SIZE NON_ZIP64_MAX_SIZE := by
        unfold tailBytes; rw [hstr]; rfl
      rw [ht] at h5
      simp only [descriptorBytes, List.append_assoc] at h5
      have h6 := drop_append_of_drop h5 (le32_length _)
      have h7 := drop_append_of_drop h6 (le32_length _)
      have h8 := drop_append_of_drop h7 (le32_length _)
      have f1 := fieldAt32_of_drop h7
      have f2 := fieldAt32_of_drop h8
      have hw : descriptorWidth (fs.map blockOf) = 8 := by
        refine width_of_zip64 wf (z := ⟨ID_ZIP64, some l.entry.uncompressedSize, some l.entry.compressedSize, none, none⟩) ?_
        rw [(hl.stream hstr).2.2]
        simp only [streamEntry, Bool.false_eq_true, if_false]
        rw [zip64_withUnicode, zip64_own _ _ _ _ hno]
      have f3 : fieldAt data (dataStart data off + l.stored.length + 4 + 4) 8 = 2 ^ 64 - 1 := by
        rw [fieldAt_eight, f1, f2, show NON_ZIP64_MAX_SIZE.toNat = 4294967295 from rfl]
      rw [hw, f3]
      refine ⟨fun hi => absurd (hi.2 hstr).1 (by decide), fun _ => ?_⟩
      rw [if_neg]
      rintro ⟨_, _, _, i4, _⟩
      omega

theorem not_central_of_local {data : Bytes} {pos : Nat} (h : OccursAt data sigLocal pos) : ¬ OccursAt data sigCentral pos := by
  intro h'
  unfold OccursAt at h h'
  rw [show sigCentral.length = sigLocal.length from rfl, h] at h'
  exact absurd h' (by decide)

/-- All of them. -/
theorem Chain.parts {C : Codec} {force : Bool} {data rest : Bytes} (hlen : data.length < 2 ^ 64) :
    ∀ {off : Nat} {y : Bytes} {ps : List (Listing × CdEntry)}, Chain force off y ps → ∀ {a : Bytes} {ds : List Bytes} {n : Nat},
      data = a ++ (y ++ (le32 CDH_SIGNATURE ++ rest)) → a.length = off → y.length < n →
      (∀ p ∈ ps, ∀ f ∈ p.1.entry.extraFields, OwnField f) →
      List.Forall₂ (fun p d => p.1.crc = crc32 d ∧ Holds C p.1 d) ps ds →
      (List.Forall₂ (fun p d => InSequence force p.1 d) ps ds →
        ∃ qs, Spec.parts C data n off = some qs ∧ List.Forall₂ (fun (p : (Listing × CdEntry) × Bytes) q => ShowsPart p.1.1 p.2 q)
          (ps.zip ds) qs) ∧
      (¬ List.Forall₂ (fun p d => InSequence force p.1 d) ps ds → Spec.parts C data n off = none) := by
  intro off y ps h
  induction h with
  | nil off =>
    intro a ds n hd ha hn _ hh
    cases hh
    have hc : OccursAt data sigCentral off := by
      have hdrop : data.drop off = le32 CDH_SIGNATURE ++ rest := by
        rw [hd, ← ha, List.drop_left, List.nil_append]
      have := occurs_of_drop hdrop
      rwa [show le32 CDH_SIGNATURE = sigCentral by decide] at this
    cases n with
    | zero => omega
    | succ n =>
      refine ⟨fun _ => ⟨[], ?_, .nil⟩, fun h => absurd .nil h⟩
      unfold Spec.parts
      rw [if_pos hc]
  | @cons off x y l c ps g _ ih =>
    intro a ds n hd ha hn hown hh
    cases hh with
    | @cons _ d _ ds h1 h2 =>
      rw [List.length_append] at hn
      obtain ⟨g0, g1, g2, g3⟩ := g.part (C := C) (d := d) (hown _ List.mem_cons_self)
        (by rw [hd, List.append_assoc]) ha hlen h1.1 h1.2
      cases n with
      | zero => omega
      | succ n =>
        obtain ⟨i1, i2⟩ := ih (a := a ++ x) (n := n) (by rw [hd]; simp only [List.append_assoc])
          (by rw [List.length_append, ha]) (by omega) (fun p hp => hown p (List.mem_cons_of_mem _ hp)) h2
        unfold Spec.parts
        rw [if_neg (not_central_of_local g0)]
        constructor
        · intro hi
          cases hi with
          | cons j1 j2 =>
            obtain ⟨p, p1, p2⟩ := g2 j1
            obtain ⟨qs, q1, q2⟩ := i1 j2
            rw [p1]
            simp only
            rw [q1]
            exact ⟨_, rfl, .cons p2 q2⟩
        · intro hi
          by_cases j1 : InSequence force l d
          · obtain ⟨p, p1, p2⟩ := g2 j1
            rw [p1]
            simp only
            rw [i2 fun j2 => hi (.cons j1 j2)]
            rfl
          · rw [g3 j1]

end AsyncZip
