import Verif.Proofs.LargeCopies
import Verif.Proofs.Independent
/-!
# Entries that bring a ZIP64 field along, to other software
-/

namespace AsyncZip
open Spec Rd

theorem plainValue {v : Nat} (b : Bytes) (i : Nat) (hv : v < 0xFFFFFFFF) : v = trueValue v b i := by
  unfold trueValue
  rw [if_neg fun h => by omega]

/-- A recorded entry that brings a ZIP64 field along, to the independent reader. -/
theorem Good.itemFull {force : Bool} {off : Nat} {x a rest rest' : Bytes} {l : Listing} {c : CdEntry} {extra data : Bytes} {j : Nat}
    (g : Good force off x l c) (hfull : ∀ f ∈ l.entry.extraFields, FullField f) (hd : data = a ++ (x ++ rest))
    (ha : a.length = off) (hx : extraAsBytes c.entry.extraFields = .ok extra)
    (hj : data.drop j = recordBytes c.header c.entry.filename.basic extra c.entry.comment.basic ++ rest')
    (hlen : data.length < 2 ^ 64) (hok : Harmless force l off) :
    (∃ i, Spec.item data j = some i ∧ Shows l i) ∧
      recordLength data j = (recordBytes c.header c.entry.filename.basic extra c.entry.comment.basic).length := by
  have hoff : off < 2 ^ 64 := by
    have := congrArg List.length hd
    rw [List.length_append] at this
    omega
  obtain ⟨r1, r2, r3, _⟩ := g.place hfull hx hj
  obtain ⟨_, s1, s2, _⟩ := g.says hfull hx hoff hj
  have hdec : Declares data j l.us.toNat l.cs.toNat off := by
    rcases hok with ⟨hf, hs⟩ | ⟨hs, hu, hc, ho⟩
    · exact s1 hf hs
    · exact s2 hs hu hc ho
  have hdisk : ∀ h fs, LocalHeader force l c h fs → diskFields fs = 0 := fun _ _ hl => hl.noDisk hfull
  have hj' := hj
  rw [recordBytes] at hj'
  simp only [List.append_assoc] at hj'
  refine ⟨item_of r1 r3 hdec (g.agrees_of hdisk (fun h fs hl => ⟨fun f hf => full_framed (hl.full hfull f hf), fun hs => ?_⟩) hd ha hj' r3 hlen)
    (g.local_of hdisk hd ha) hlen, r2⟩
  rcases hok with ⟨_, hs'⟩ | ⟨_, hu, hc, _⟩
  · rw [hs] at hs'
    cases hs'
  · obtain ⟨_, ⟨g1, g2, g3, g4, _⟩ | ⟨_, hb, _⟩⟩ := hl.whole hs
    · have e1 : h.uncompressedSize.toNat = l.us.toNat := by rw [g3, UInt64.toNat_toUInt32]; omega
      have e2 : h.compressedSize.toNat = l.cs.toNat := by rw [g4, UInt64.toNat_toUInt32]; omega
      rw [e1, e2]
      exact ⟨plainValue _ _ hu, plainValue _ _ hc⟩
    · rcases hb with hb | hb
      · have : 0xFFFFFFFF < l.us.toNat := hb
        omega
      · have : 0xFFFFFFFF < l.cs.toNat := hb
        omega

theorem framed_complete {f : ExtraField} (h : Framed f) : CompleteField (blockOf f) := by
  obtain ⟨us, cs, h⟩ := h
  unfold CompleteField blockOf
  cases f with
  | zip64 z =>
    intro hid
    simp only [fieldId, h.1] at hid
    exact absurd hid (by decide)
  | unicodeComment i =>
    cases i with
    | v1 crc s => exact fun _ => ⟨by simp [fieldContent], fun _ => by simp [fieldContent, le32_length]⟩
    | unknown v d =>
      refine fun _ => ⟨by simp [fieldContent], fun hv => ?_⟩
      simp only [fieldContent, List.head?_cons, Option.some.injEq] at hv
      exact absurd hv h.1
  | unicodePath i =>
    cases i with
    | v1 crc s => exact fun _ => ⟨by simp [fieldContent], fun _ => by simp [fieldContent, le32_length]⟩
    | unknown v d =>
      refine fun _ => ⟨by simp [fieldContent], fun hv => ?_⟩
      simp only [fieldContent, List.head?_cons, Option.some.injEq] at hv
      exact absurd hv h.1
  | unknown g =>
    obtain ⟨_, h2, h3, _⟩ := h
    intro hid
    rcases hid with hid | hid
    · exact absurd (UInt16.toNat_inj.1 hid) h2
    · exact absurd (UInt16.toNat_inj.1 hid) h3

/-- Any recorded entry that can be read, to the independent reader. -/
theorem Good.itemRepack {force : Bool} {off : Nat} {x a rest rest' : Bytes} {l : Listing} {c : CdEntry} {extra data : Bytes} {j : Nat}
    (g : Good force off x l c) (hs : Repackable force l off) (hd : data = a ++ (x ++ rest))
    (ha : a.length = off) (hx : extraAsBytes c.entry.extraFields = .ok extra)
    (hj : data.drop j = recordBytes c.header c.entry.filename.basic extra c.entry.comment.basic ++ rest')
    (hlen : data.length < 2 ^ 64) :
    (∃ i, Spec.item data j = some i ∧ Shows l i ∧ Supported i) ∧
      recordLength data j = (recordBytes c.header c.entry.filename.basic extra c.entry.comment.basic).length := by
  have hoff : off < 2 ^ 64 := by
    have := congrArg List.length hd
    rw [List.length_append] at this
    omega
  have fin : diskFields c.entry.extraFields = 0 → (∀ f ∈ c.entry.extraFields, Framed f) → ∀ i, Spec.item data j = some i → Shows l i →
      Supported i := fun hdisk hwf i hi hsh => ⟨⟨_, hsh.method⟩, fun block hb => by
    rw [g.extra hdisk hwf hx hj hi] at hb
    obtain ⟨f, hf, rfl⟩ := List.mem_map.1 hb
    exact framed_complete (hwf f hf)⟩
  have d := g.describes
  have hcar := d.carries
  rcases hs with ⟨hown, hcl, hrec⟩ | ⟨hfull, hok⟩
  · obtain ⟨⟨i, i1, i2⟩, i3⟩ := g.item hown hd ha hx hj hlen hcl hrec
    have hwf := (hcar.decodes hown g.fits hoff fun hs hoff hu hc => by
      rw [hrec] at hu hc ⊢
      exact ⟨fun h => hcl ⟨hs, hoff, hu, hc, Or.inl h⟩, fun h => hcl ⟨hs, hoff, hu, hc, Or.inr h⟩⟩).wf
    exact ⟨⟨i, i1, i2, fin (diskFields_none (hcar.disk (own_noZip64 hown))) (fun f hf => ⟨_, _, hwf f hf⟩) i i1 i2⟩, i3⟩
  · obtain ⟨⟨i, i1, i2⟩, i3⟩ := g.itemFull hfull hd ha hx hj hlen hok
    refine ⟨⟨i, i1, i2, fin (diskFields_none (hcar.noDisk hfull)) (fun f hf => full_framed ?_) i i1 i2⟩, i3⟩
    rcases hok with ⟨hf', hs⟩ | ⟨hs, hu, hc, ho⟩
    · have hrec : l.recorded force = (l.us, l.cs) := by
        rw [Listing.recorded, hf', Bool.false_and]
        rfl
      rw [hrec, hf', hs] at hcar
      exact (hcar.streamed hfull g.fits).1 f hf
    · have hrec : l.recorded force = (l.us, l.cs) := by
        rw [Listing.recorded, hs, Bool.and_false]
        rfl
      rw [hrec] at hcar
      exact (hcar.small hfull g.fits hs hu hc ho).1 f hf

end AsyncZip
