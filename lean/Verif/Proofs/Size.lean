import Verif.Spec.Size
import Verif.Proofs.Verdict
import Verif.Proofs.Local
import Verif.Proofs.Fields
/-!
# How long an archive is
-/

namespace AsyncZip
open Spec

theorem namedTotal_add (e : ZipEntry) (k : Nat) :
    namedTotal e (countedAll e.extraFields + k) = namedTotal e (countedAll e.extraFields) + k := by
  unfold namedTotal
  split
  · rfl
  · have h1 : ∀ c s, pathField e.extraFields = some (.v1 c s) → s.length ≤ countedAll e.extraFields :=
      fun c s h => pathField_le h
    have h2 : ∀ c s, commentField e.extraFields = some (.v1 c s) → s.length ≤ countedAll e.extraFields :=
      fun c s h => commentField_le h
    have h3 : ∀ c s, commentField e.extraFields = some (.v1 c s) →
        s.length ≤ retold (countedAll e.extraFields) e.filename.raw.length (pathField e.extraFields) := by
      intro c s h
      have := counted_path 0 e.filename.raw e.extraFields
      rw [← this]
      exact commentField_le (c := c) ((commentField_path 0 e.filename.raw e.extraFields).trans h)
    simp only
    split <;> split
    · rw [Nat.add_comm _ k, retold_add h1, retold_add h3, Nat.add_comm]
    · rw [Nat.add_comm _ k, retold_add h2, Nat.add_comm]
    · rw [Nat.add_comm _ k, retold_add h1, Nat.add_comm]
    · rfl

theorem vast_iff (l : Listing) : Vast l ↔ (l.us > 0xFFFFFFFF ∨ l.cs > 0xFFFFFFFF) :=
  or_congr (beyond_iff rfl).symm (beyond_iff rfl).symm

theorem needs_iff (l : Listing) : NeedsZip64 l ↔ (l.streamed = true ∨ Vast l) := by
  rw [vast_iff]; exact Iff.rfl

theorem counted_sizes_field (e : ZipEntry) (us cs : UInt64) (o : Option UInt64) :
    extraCountBytes (withUnicode e (e.extraFields ++ [zip64Of (some us) (some cs) o])) =
      namedTotal e (countedAll e.extraFields) + (if o.isSome then 28 else 20) := by
  rw [countedAll_eq, zip64Of, counted_unicode _ _ (pathField_zip64 _ _) (commentField_zip64 _ _), countedAll_append]
  rw [show countedAll [ExtraField.zip64 ⟨ID_ZIP64, some us, some cs, o, none⟩] = (if o.isSome then 28 else 20) by
    cases o <;> rfl]
  exact namedTotal_add e _

theorem farField_isSome (off : Nat) : ((farField off).isSome = true) ↔ Beyond32 off := by
  unfold farField Beyond32
  by_cases h : off ≤ 0xFFFFFFFF
  · rw [if_pos h]; simp; exact h
  · rw [if_neg h]; simp; omega

/-- The extra fields of the local header. -/
theorem LocalHeader.counted {force : Bool} {off : Nat} {l : Listing} {c : CdEntry} {h : LocalFileHeader} {fs : List ExtraField}
    (d : Describes force off l c) (hl : LocalHeader force l c h fs) :
    extraCountBytes fs = namedTotal l.entry (countedAll l.entry.extraFields) + localZip64 force off l := by
  unfold localZip64
  cases hs : l.streamed with
  | true =>
    rw [if_pos rfl, (hl.stream hs).2.2, streamEntry_counted, namedTotal_add]
  | false =>
    rw [if_neg (by simp)]
    have hc := d.carries
    have hrec : l.recorded force = (l.us, l.cs) := by unfold Listing.recorded; rw [hs, Bool.and_false]; rfl
    rw [hs, hrec] at hc
    rcases (hl.whole hs).2 with ⟨h1, h2, _, _, hfs⟩ | ⟨o, hb, _, _, hcf, hfs⟩
    · rw [if_neg (fun hv => ?_), hfs, countedAll_eq, counted_unicode _ _ rfl rfl, Nat.add_zero]
      rcases (vast_iff l).1 hv with hv | hv
      · exact gt_of_not_le64 hv h1
      · exact gt_of_not_le64 hv h2
    · rw [if_pos ((vast_iff l).2 hb), ← hcf]
      generalize hh : c.header = hd at hc
      generalize hx : c.entry.extraFields = fs' at hc
      cases hc with
      | plain _ hu hcc _ _ _ _ =>
        rcases hb with hb | hb
        · exact absurd hu (gt_of_not_le64 hb)
        · exact absurd hcc (gt_of_not_le64 hb)
      | big _ _ _ _ _ =>
        rw [counted_sizes_field]
        simp only [farField_isSome]
      | far _ hu hcc _ _ _ _ =>
        rcases hb with hb | hb
        · exact absurd hu (gt_of_not_le64 hb)
        · exact absurd hcc (gt_of_not_le64 hb)
      | stream _ h' _ _ _ => cases h'

theorem gap_zip64 (force : Bool) (off : Nat) (l : Listing) :
    localZip64 force off l + headerGap force off l = directoryZip64 force off l := by
  unfold localZip64 headerGap directoryZip64
  cases l.streamed with
  | true => cases force <;> rfl
  | false =>
    simp only [Bool.false_eq_true, if_false]
    by_cases hv : Vast l
    · have hn : ¬ (0xFFFFFFFF < off ∧ l.us ≤ 0xFFFFFFFF ∧ l.cs ≤ 0xFFFFFFFF) := by
        intro h
        rcases (vast_iff l).1 hv with hv | hv
        · exact gt_of_not_le64 hv h.2.1
        · exact gt_of_not_le64 hv h.2.2
      rw [if_pos hv, if_pos hv, if_neg hn, Nat.add_zero]
    · rw [if_neg hv, if_neg hv, Nat.zero_add]
      have hv' := fun h => hv ((vast_iff l).2 h)
      by_cases ho : Beyond32 off
      · rw [if_pos ho, if_pos ⟨ho, le_of_not_gt64 fun h => hv' (Or.inl h), le_of_not_gt64 fun h => hv' (Or.inr h)⟩]
      · rw [if_neg ho, if_neg (fun h => ho h.1)]

/-- One entry. -/
theorem Good.lengths {force : Bool} {off : Nat} {x : Bytes} {l : Listing} {c : CdEntry} (g : Good force off x l c)
    (hno : NoZip64 l.entry.extraFields) : x.length = partLength force off l ∧
      ∀ extra, extraAsBytes c.entry.extraFields = .ok extra →
        (recordBytes c.header c.entry.filename.basic extra c.entry.comment.basic).length = directoryPart force off l := by
  obtain ⟨h, fs, extra, hl, hx, hbytes⟩ := g.bytes
  have d := g.describes
  have hloc := LocalHeader.counted d hl
  constructor
  · have hlen := extraAsBytes_length hx
    rw [local_disk hl hno] at hlen
    have ht : (tailBytes force l).length = if l.streamed then 16 else 0 := by
      unfold tailBytes
      cases l.streamed with
      | false => rfl
      | true => cases force <;> simp [descriptorBytes, le32_length]
    rw [hbytes, localBytes, partLength]
    simp only [List.length_append, le32_length, lfh_length, ht]
    omega
  · intro extra hx
    have hlen := extraAsBytes_length hx
    rw [diskFields_none (d.carries.disk hno), Good.gap d hl hno, hloc] at hlen
    rw [recordBytes_length, directoryPart, ← gap_zip64, d.filename, d.comment]
    omega

theorem Body.lengths {J : Prop} (hJ : ¬ J) {force : Bool} {out : Bytes} {ps : List (Listing × CdEntry)}
    (h : Body J force out ps) (hno : ∀ p ∈ ps, NoZip64 p.1.entry.extraFields) :
    partsEnd force 0 (ps.map Prod.fst) = out.length ∧ ∀ cd, Directory (ps.map Prod.snd) cd →
      cd.length = directoryLength force 0 (ps.map Prod.fst) := by
  have ends : ∀ (ls : List Listing) (l : Listing) (off : Nat), partsEnd force off (ls ++ [l]) =
      partsEnd force off ls + partLength force (partsEnd force off ls) l := by
    intro ls l
    induction ls with
    | nil => intro off; simp only [List.nil_append, partsEnd]
    | cons a ls ih => intro off; simp only [List.cons_append, partsEnd, ih]
  have dirs : ∀ (ls : List Listing) (l : Listing) (off : Nat), directoryLength force off (ls ++ [l]) =
      directoryLength force off ls + directoryPart force (partsEnd force off ls) l := by
    intro ls l
    induction ls with
    | nil => intro off; simp [directoryLength, partsEnd]
    | cons a ls ih =>
      intro off
      have := ih (off + partLength force off a)
      simp only [List.cons_append, directoryLength, partsEnd, this]
      omega
  have split : ∀ (cs : List CdEntry) (c : CdEntry) (cd : Bytes), Directory (cs ++ [c]) cd →
      ∃ a extra, Directory cs a ∧ extraAsBytes c.entry.extraFields = .ok extra ∧
        cd = a ++ recordBytes c.header c.entry.filename.basic extra c.entry.comment.basic := by
    intro cs c
    induction cs with
    | nil =>
      intro cd h
      cases h with
      | cons hx h' =>
        cases h'
        exact ⟨[], _, .nil, hx, by rw [List.append_nil, List.nil_append]⟩
    | cons b cs ih =>
      intro cd h
      cases h with
      | cons hx h' =>
        obtain ⟨a, extra, h1, h2, h3⟩ := ih _ h'
        exact ⟨_, extra, .cons hx h1, h2, by rw [h3, List.append_assoc]⟩
  induction h with
  | nil =>
    refine ⟨by simp only [List.map_nil, partsEnd, List.length_nil], fun cd h => ?_⟩
    cases h
    simp only [List.map_nil, directoryLength, List.length_nil]
  | @snoc out ps x l c _ g ih =>
    obtain ⟨i1, i2⟩ := ih fun p hp => hno p (List.mem_append_left _ hp)
    obtain ⟨g1, g2⟩ := g.lengths (hno (l, c) (List.mem_append_right _ List.mem_cons_self))
    refine ⟨?_, fun cd h => ?_⟩
    · rw [List.map_append, List.map_singleton, ends, i1, List.length_append, g1]
    · rw [List.map_append, List.map_singleton] at h
      obtain ⟨a, extra, h1, h2, rfl⟩ := split _ _ _ h
      rw [List.map_append, List.map_singleton, dirs, i1, List.length_append, i2 a h1, g2 extra h2]
  | junk j hj _ _ => exact absurd hj hJ

end AsyncZip
