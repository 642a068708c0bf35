import Verif.Spec.Classic
import Verif.Proofs.Independent
/-!
# The reader from before ZIP64 on written archives
-/

namespace AsyncZip
open Spec Rd

/-- Nothing about the entry needs ZIP64. -/
structure Modest (force : Bool) (off : Nat) (l : Listing) : Prop where
  stream : l.streamed = true → force = true
  us : l.us ≤ 0xFFFFFFFF
  cs : l.cs ≤ 0xFFFFFFFF
  off : off ≤ 0xFFFFFFFF

theorem toUInt32_small {x : UInt64} (h : x ≤ 0xFFFFFFFF) : x.toUInt32.toNat = x.toNat := by
  rw [UInt64.le_iff_toNat_le, show (0xFFFFFFFF : UInt64).toNat = 4294967295 from rfl] at h
  rw [UInt64.toNat_toUInt32, Nat.mod_eq_of_lt (by omega)]

theorem not_gt64 {x : UInt64} (h : x ≤ 0xFFFFFFFF) : ¬ x > 0xFFFFFFFF := by
  rw [UInt64.le_iff_toNat_le] at h
  intro hn
  rw [gt_iff_lt, UInt64.lt_iff_toNat_lt] at hn
  omega

/-- The fields of the directory record. -/
theorem Good.rawRecord {force : Bool} {off : Nat} {x : Bytes} {l : Listing} {c : CdEntry} {rest' data : Bytes} {j : Nat}
    (g : Good force off x l c) (hm : Modest force off l) (hrec : l.recorded force = (l.us, l.cs))
    (hj : data.drop j = le32 CDH_SIGNATURE ++ (c.header.asSlice ++ rest')) :
    fieldAt data (j + 24) 4 = l.us.toNat ∧ fieldAt data (j + 20) 4 = l.cs.toNat ∧ fieldAt data (j + 42) 4 = off := by
  have h1 := drop_append_of_drop hj (le32_length _)
  obtain ⟨k1, k2, k3, k4, k5, k6, k7, k8, k9, k10, k11, k12, k13, k14⟩ :=
    cdr_fields (take_of_drop h1 (cdr_length c.header)).symm
  have hca := g.describes.carries
  rw [hrec] at hca
  generalize c.entry.extraFields = fs at hca
  generalize c.header = hd at hca k6 k7 k14
  cases hca with
  | plain _ _ _ ho h1 h2 h3 =>
    rw [k6, k7, k14, h1, h2, h3, toUInt32_small hm.us, toUInt32_small hm.cs]
    have : off < 2 ^ 32 := by omega
    exact ⟨rfl, rfl, by rw [UInt32.toNat_ofNat', Nat.mod_eq_of_lt this]⟩
  | big _ hb => rcases hb with hb | hb; exacts [absurd hb (not_gt64 hm.us), absurd hb (not_gt64 hm.cs)]
  | far _ _ _ ho => exact absurd hm.off ho
  | stream hf hs => rw [hm.stream hs] at hf; cases hf

/-- The local header of a whole entry. -/
theorem Good.rawLocal {force : Bool} {off : Nat} {x a rest : Bytes} {l : Listing} {c : CdEntry} {data : Bytes}
    (g : Good force off x l c) (hm : Modest force off l) (hd : data = a ++ (x ++ rest)) (ha : a.length = off)
    (hs : l.streamed = false) : fieldAt data (off + 22) 4 = l.us.toNat ∧ fieldAt data (off + 18) 4 = l.cs.toNat := by
  obtain ⟨h, fs, extra, hl, hx, hbytes⟩ := g.bytes
  have h0 : data.drop off = le32 LFH_SIGNATURE ++ (h.asSlice ++ (l.entry.filename.basic ++ (extra ++ (l.stored ++
      (tailBytes force l ++ rest))))) := by
    rw [hd, List.drop_append_of_le_length (Nat.le_of_eq ha.symm), ← ha, List.drop_length, List.nil_append, hbytes, localBytes]
    simp only [List.append_assoc]
  have h1 := drop_append_of_drop h0 (le32_length _)
  obtain ⟨k1, k2, k3, k4, k5, k6, k7, k8, k9⟩ := lfh_fields (take_of_drop h1 (lfh_length h)).symm
  rcases (hl.whole hs).2 with ⟨_, _, e1, e2, _⟩ | ⟨_, hb, _⟩
  · rw [k6, k7, e1, e2, toUInt32_small hm.us, toUInt32_small hm.cs]
    exact ⟨rfl, rfl⟩
  · rcases hb with hb | hb
    exacts [absurd hb (not_gt64 hm.us), absurd hb (not_gt64 hm.cs)]

theorem agrees_raw {data content : Bytes} {j off us cs : Nat} (h : Spec.agrees data j off us cs content = true)
    (hr : (fieldAt data (off + 6) 2).testBit 3 = false → fieldAt data (off + 22) 4 = us ∧ fieldAt data (off + 18) 4 = cs) :
    Spec.agrees data j off us cs [] = true := by
  unfold Spec.agrees at h ⊢
  rw [Bool.and_eq_true] at h ⊢
  refine ⟨h.1, ?_⟩
  cases hb : (fieldAt data (off + 6) 2).testBit 3 with
  | true =>
    have h2 := h.2
    rw [hb, if_pos rfl] at h2
    rw [if_pos rfl]
    exact h2
  | false =>
    have h2 := h.2
    rw [hb, if_neg (by decide), Bool.and_eq_true, Bool.and_eq_true] at h2
    rw [if_neg (by decide), trueValue_nil, trueValue_nil, h2.1.1, decide_eq_true (hr hb).1, decide_eq_true (hr hb).2]
    rfl

/-- A recorded entry, to the reader from before ZIP64. -/
theorem Good.classicItem {force : Bool} {off : Nat} {x a rest rest' : Bytes} {l : Listing} {c : CdEntry} {extra data : Bytes}
    {j : Nat} (g : Good force off x l c) (hm : Modest force off l) (hown : ∀ f ∈ l.entry.extraFields, OwnField f)
    (hd : data = a ++ (x ++ rest)) (ha : a.length = off) (hx : extraAsBytes c.entry.extraFields = .ok extra)
    (hj : data.drop j = recordBytes c.header c.entry.filename.basic extra c.entry.comment.basic ++ rest')
    (hlen : data.length < 2 ^ 64) (hrec : l.recorded force = (l.us, l.cs)) :
    (∃ i, Spec.classicItem data j = some i ∧ Shows l i) ∧
      recordLength data j = (recordBytes c.header c.entry.filename.basic extra c.entry.comment.basic).length := by
  have hoff : off < 2 ^ 64 := by
    have := congrArg List.length hd
    rw [List.length_append] at this
    omega
  obtain ⟨r1, r2, r3, r4⟩ := g.record (own_noZip64 hown) hx hj
  obtain ⟨bl, b1, _⟩ := (r4 hown hoff).1 fun hc => by
    have h1 := hc.2.1
    have h2 := hm.off
    omega
  have hj' := hj
  rw [recordBytes] at hj'
  simp only [List.append_assoc] at hj'
  obtain ⟨bl', c1, c2, c3⟩ := g.agrees hown hd ha hj' r3 hlen
  have hloc := g.local (own_noZip64 hown) hd ha
  have hcs : l.cs.toNat = l.stored.length := by
    rw [Listing.cs, UInt64.toNat_ofNat', Nat.mod_eq_of_lt (by omega)]
  obtain ⟨f1, f2, f3⟩ := g.rawRecord hm hrec hj'
  have hb := blocksOf_of b1 rfl (n := data.length) (by rw [window, List.length_take, List.length_drop]; omega)
  have hag := agrees_raw c2 fun hbit => by
    rw [hloc.streamed] at hbit
    have := g.rawLocal hm hd ha hbit
    rwa [hcs] at this
  refine ⟨?_, r2⟩
  unfold Spec.classicItem
  rw [f1, f2, f3, hcs, if_pos ⟨r1, r3.disk, hloc.signature, c3, hag⟩, hb]
  exact ⟨_, rfl, r3.name, r3.comment, r3.method, r3.time, r3.date, r3.crc, rfl, rfl, r3.internal, r3.external, hloc.stored⟩

/-- All of them. -/
theorem Directory.classicItems {force : Bool} {data out y : Bytes} (hd : data = out ++ y) (hlen : data.length < 2 ^ 64)
    (hout : out.length ≤ 0xFFFFFFFF) :
    ∀ {ps : List (Listing × CdEntry)} {cd : Bytes} {offs : List Nat} {rest : Bytes} {j : Nat},
    Directory (ps.map Prod.snd) cd → data.drop j = cd ++ rest → List.Forall₂ (At force out) ps offs →
    (∀ p ∈ ps, ∀ f ∈ p.1.entry.extraFields, OwnField f) →
    (∀ p ∈ ps, p.1.recorded force = (p.1.us, p.1.cs)) → (force = false → ∀ p ∈ ps, ¬ NeedsZip64 p.1) →
    ∃ is, Spec.classicItems data (j + cd.length) ps.length j = some is ∧ List.Forall₂ Shows (ps.map Prod.fst) is := by
  intro ps
  induction ps with
  | nil =>
    intro cd offs rest j hdir _ _ _ _ _
    cases hdir
    exact ⟨[], by rw [List.length_nil, List.length_nil]; unfold Spec.classicItems; exact if_pos rfl, .nil⟩
  | cons p ps ih =>
    intro cd offs rest j hdir hj hat hown hsw hnz
    cases hat with
    | cons h1 hat =>
      rename_i off offs
      obtain ⟨a, x, r, ho, ha, g⟩ := h1
      have hm : Modest force off p.1 := by
        have hol : off ≤ 0xFFFFFFFF := by
          have := congrArg List.length ho
          rw [List.length_append] at this
          omega
        cases hf : force with
        | true =>
          obtain ⟨s1, s2, _⟩ := g.small hf
          exact ⟨fun _ => rfl, s1, s2, hol⟩
        | false =>
          have hn := hnz hf p List.mem_cons_self
          exact ⟨fun hs => absurd (Or.inl hs) hn, le_of_not_gt64 fun h => hn (Or.inr (Or.inl h)),
            le_of_not_gt64 fun h => hn (Or.inr (Or.inr h)), hol⟩
      rw [List.map_cons] at hdir
      cases hdir with
      | cons hx hdir =>
        rename_i extra bs
        rw [List.append_assoc] at hj
        obtain ⟨⟨i, i1, i2⟩, i3⟩ := g.classicItem hm (hown p List.mem_cons_self) (rest := r ++ y)
          (by rw [hd, ho]; simp only [List.append_assoc]) ha hx hj hlen (hsw p List.mem_cons_self)
        obtain ⟨is, k1, k2⟩ := ih hdir (drop_append_of_drop hj rfl) hat (fun q hq => hown q (List.mem_cons_of_mem _ hq))
          (fun q hq => hsw q (List.mem_cons_of_mem _ hq)) (fun hf q hq => hnz hf q (List.mem_cons_of_mem _ hq))
        refine ⟨i :: is, ?_, .cons i2 k2⟩
        rw [List.length_cons]
        unfold Spec.classicItems
        rw [List.length_append, ← Nat.add_assoc, i1, i3, k1]

end AsyncZip
