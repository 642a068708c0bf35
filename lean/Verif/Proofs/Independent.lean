import Verif.Spec.Independent
import Verif.Proofs.Visits
import Verif.Proofs.Directory
/-!
# The independent reader on written archives
-/

namespace AsyncZip
open Spec Rd

theorem lastEndBelow_of {data : Bytes} {j : Nat} (h : LastEnd data j) : ∀ {n : Nat}, j < n → lastEndBelow data n = some j := by
  intro n
  induction n with
  | zero => intro hn; omega
  | succ n ih =>
    intro hn
    unfold lastEndBelow
    by_cases he : OccursAt data sigEnd n
    · rw [if_pos he]
      have := h.2 n he
      rw [show n = j by omega]
    · rw [if_neg he]
      have : j ≠ n := by rintro rfl; exact he h.1
      exact ih (by omega)

theorem blocksOf_of {b : Bytes} {rs : List (Nat × Bytes)} {tail : Bytes} (h : Blocks b rs tail) :
    tail = [] → ∀ {n : Nat}, b.length ≤ n → blocksOf n b = some rs := by
  induction h with
  | nil tail =>
    rintro rfl n _
    unfold blocksOf
    rfl
  | cons b rs tail hlen hrest ih =>
    rintro ht n hn
    cases b with
    | nil => rw [List.length_nil] at hlen; omega
    | cons x xs =>
      cases n with
      | zero => rw [List.length_cons] at hn; omega
      | succ n =>
        unfold blocksOf
        rw [if_pos hlen, ih ht (by rw [List.length_drop]; omega)]
        rfl

/-- Ten bytes that both kinds of header have in common. -/
theorem lfh_common (h : LocalFileHeader) : h.asSlice.take 10 =
    le16 h.version ++ h.flags.asSlice ++ le16 h.compression ++ le16 h.modTime ++ le16 h.modDate := by
  unfold LocalFileHeader.asSlice
  simp only [List.append_assoc]
  rw [← List.append_assoc, ← List.append_assoc, ← List.append_assoc, ← List.append_assoc, List.take_left' (by simp [le16_length, flags_length])]
  simp only [List.append_assoc]

theorem cdr_common (h : CentralDirectoryRecord) : (h.asSlice.drop 2).take 10 =
    le16 h.vNeeded ++ h.flags.asSlice ++ le16 h.compression ++ le16 h.modTime ++ le16 h.modDate := by
  unfold CentralDirectoryRecord.asSlice
  simp only [List.append_assoc]
  rw [List.drop_left' (le16_length _), ← List.append_assoc, ← List.append_assoc, ← List.append_assoc, ← List.append_assoc,
    List.take_left' (by simp [le16_length, flags_length])]
  simp only [List.append_assoc]

/-- The local header of a recorded entry, to a reader that compares it with the directory record. -/
theorem Good.agrees_of {force : Bool} {off : Nat} {x a rest rest' : Bytes} {l : Listing} {c : CdEntry} {data : Bytes} {j : Nat}
    (g : Good force off x l c) (hdisk : ∀ h fs, LocalHeader force l c h fs → diskFields fs = 0)
    (hmeans : ∀ h fs, LocalHeader force l c h fs → (∀ f ∈ fs, Framed f) ∧ (l.streamed = false →
      l.us.toNat = trueValue h.uncompressedSize.toNat (zipContent (getZip64ExtraField fs)) 0 ∧
      l.cs.toNat = trueValue h.compressedSize.toNat (zipContent (getZip64ExtraField fs)) (room h.uncompressedSize.toNat)))
    (hd : data = a ++ (x ++ rest))
    (ha : a.length = off) (hj : data.drop j = le32 CDH_SIGNATURE ++ (c.header.asSlice ++ rest'))
    (hdesc : Describes32 data j l) (hlen : data.length < 2 ^ 64) :
    ∃ blocks, blocksOf data.length (window data (off + 30 + fieldAt data (off + 26) 2) (fieldAt data (off + 28) 2)) = some blocks ∧
      Spec.agrees data j off l.us.toNat l.stored.length (zip64Content blocks) = true ∧
      dataStart data off + l.stored.length ≤ data.length := by
  have hloc := g.local_of hdisk hd ha
  obtain ⟨h, fs, extra, hl, hx, hbytes⟩ := g.bytes
  have hel := extraAsBytes_length hx
  rw [hdisk h fs hl] at hel
  have h0 : data.drop off = le32 LFH_SIGNATURE ++ (h.asSlice ++ (l.entry.filename.basic ++ (extra ++ (l.stored ++
      (tailBytes force l ++ rest))))) := by
    rw [hd, List.drop_append_of_le_length (Nat.le_of_eq ha.symm), ← ha, List.drop_length, List.nil_append, hbytes, localBytes]
    simp only [List.append_assoc]
  have h1 := drop_append_of_drop h0 (le32_length _)
  have h2 := drop_append_of_drop h1 (lfh_length h)
  have h3 := drop_append_of_drop h2 hl.nameLen.symm
  have h4 := drop_append_of_drop (n := h.extraFieldLength.toNat) h3 (by rw [hl.extraLen]; omega)
  obtain ⟨k1, k2, k3, k4, k5, k6, k7, k8, k9⟩ := lfh_fields (take_of_drop h1 (lfh_length h)).symm
  have hfit : dataStart data off + l.stored.length ≤ data.length := by
    have hst := hloc.stored
    by_cases he : l.stored = []
    · have hds : dataStart data off = off + 4 + 26 + h.fileNameLength.toNat + h.extraFieldLength.toNat := by
        unfold dataStart
        rw [k8, k9]
      have hxl : x.length = 30 + l.entry.filename.basic.length + extra.length + l.stored.length + (tailBytes force l).length := by
        rw [hbytes, localBytes]
        simp only [List.length_append, lfh_length, le32_length]
        omega
      have hdl := congrArg List.length hd
      simp only [List.length_append] at hdl
      have e1 := hl.nameLen
      have e2 := hl.extraLen
      omega
    · have := congrArg List.length hst
      rw [List.length_take, List.length_drop] at this
      have : 0 < l.stored.length := List.length_pos_iff.2 he
      omega
  obtain ⟨wf, hsz⟩ := hmeans h fs hl
  have hwin : window data (off + 30 + fieldAt data (off + 26) 2) (fieldAt data (off + 28) 2) = extra := by
    rw [k8, k9, window, show off + 30 = off + 4 + 26 by omega]
    exact take_of_drop h3 (by rw [hl.extraLen]; omega)
  refine ⟨fs.map blockOf, ?_, ?_, hfit⟩
  · rw [hwin]
    refine blocksOf_of (blocks_of_framed wf hx) rfl ?_
    rw [← hwin, window, List.length_take, List.length_drop]
    omega
  · have hten : window data (off + 4) 10 = window data (j + 6) 10 := by
      have e1 : window data (off + 4) 10 = h.asSlice.take 10 := by
        rw [window, h1, List.take_append_of_le_length (by rw [lfh_length]; omega)]
      have e2 : window data (j + 6) 10 = (c.header.asSlice.drop 2).take 10 := by
        have := drop_append_of_drop hj (le32_length _)
        rw [window, show j + 6 = j + 4 + 2 by omega, ← List.drop_drop, this,
          List.drop_append_of_le_length (by rw [cdr_length]; omega),
          List.take_append_of_le_length (by rw [List.length_drop, cdr_length]; omega)]
      rw [e1, e2, lfh_common, cdr_common, hl.version, hl.flags, hl.method, hl.time, hl.date]
    have hname : window data (off + 30) (fieldAt data (off + 26) 2) = window data (j + 46) (fieldAt data (j + 28) 2) :=
      hloc.name.trans hdesc.name.symm
    unfold Spec.agrees
    rw [hloc.streamed, decide_eq_true hten, decide_eq_true hname, Bool.and_true, Bool.true_and]
    cases hs : l.streamed with
    | true =>
      rw [if_pos rfl, decide_eq_true (hloc.descriptor hs).1, decide_eq_true (by rw [(hloc.descriptor hs).2, hdesc.crc])]
      rfl
    | false =>
      rw [if_neg (by decide), decide_eq_true (by rw [hloc.crc hs, hdesc.crc]), Bool.true_and, k6, k7, zip64Content_framed wf]
      obtain ⟨t1, t2⟩ := hsz hs
      have hcs : l.cs.toNat = l.stored.length := by
        rw [Listing.cs, UInt64.toNat_ofNat', Nat.mod_eq_of_lt (by omega)]
      rw [decide_eq_true t1.symm, decide_eq_true (by rw [← t2, hcs])]
      rfl

theorem Good.agrees {force : Bool} {off : Nat} {x a rest rest' : Bytes} {l : Listing} {c : CdEntry} {data : Bytes} {j : Nat}
    (g : Good force off x l c) (hown : ∀ f ∈ l.entry.extraFields, OwnField f) (hd : data = a ++ (x ++ rest))
    (ha : a.length = off) (hj : data.drop j = le32 CDH_SIGNATURE ++ (c.header.asSlice ++ rest'))
    (hdesc : Describes32 data j l) (hlen : data.length < 2 ^ 64) :
    ∃ blocks, blocksOf data.length (window data (off + 30 + fieldAt data (off + 26) 2) (fieldAt data (off + 28) 2)) = some blocks ∧
      Spec.agrees data j off l.us.toNat l.stored.length (zip64Content blocks) = true ∧
      dataStart data off + l.stored.length ≤ data.length := by
  refine g.agrees_of (fun _ _ hl => local_disk hl (own_noZip64 hown)) (fun h fs hl => ?_) hd ha hj hdesc hlen
  obtain ⟨wf, _, _, hsz⟩ := hl.decodes hown
  refine ⟨fun f hf => ⟨_, _, wf f hf⟩, fun hs => ?_⟩
  obtain ⟨t1, t2, _⟩ := trueValues (O := 0) (fun z hz => wf _ (getZip64_mem hz)) (hsz hs) rfl
  exact ⟨t1, t2⟩

/-- A recorded entry, to the independent reader. -/
theorem item_of {off : Nat} {l : Listing} {data : Bytes} {j : Nat} (r1 : OccursAt data sigCentral j)
    (r3 : Describes32 data j l) (hd : Declares data j l.us.toNat l.cs.toNat off)
    (hag : ∃ blocks, blocksOf data.length (window data (off + 30 + fieldAt data (off + 26) 2) (fieldAt data (off + 28) 2)) = some blocks ∧
      Spec.agrees data j off l.us.toNat l.stored.length (zip64Content blocks) = true ∧
      dataStart data off + l.stored.length ≤ data.length)
    (hloc : LocalOf data off l) (hlen : data.length < 2 ^ 64) : ∃ i, Spec.item data j = some i ∧ Shows l i := by
  obtain ⟨bl, b1, b2, b3, b4⟩ := hd
  obtain ⟨bl', c1, c2, c3⟩ := hag
  have hcs : l.cs.toNat = l.stored.length := by
    rw [Listing.cs, UInt64.toNat_ofNat', Nat.mod_eq_of_lt (by omega)]
  simp only [hcs] at b3
  have hb := blocksOf_of b1 rfl (n := data.length) (by rw [window, List.length_take, List.length_drop]; omega)
  unfold Spec.item
  rw [if_pos ⟨r1, r3.disk⟩, hb]
  simp only
  rw [← b2, ← b3, ← b4]
  unfold itemAt
  rw [if_pos ⟨hloc.signature, c3⟩, c1]
  simp only
  rw [if_pos c2]
  exact ⟨_, rfl, r3.name, r3.comment, r3.method, r3.time, r3.date, r3.crc, rfl, rfl, r3.internal, r3.external, hloc.stored⟩

theorem Good.item {force : Bool} {off : Nat} {x a rest rest' : Bytes} {l : Listing} {c : CdEntry} {extra data : Bytes} {j : Nat}
    (g : Good force off x l c) (hown : ∀ f ∈ l.entry.extraFields, OwnField f) (hd : data = a ++ (x ++ rest))
    (ha : a.length = off) (hx : extraAsBytes c.entry.extraFields = .ok extra)
    (hj : data.drop j = recordBytes c.header c.entry.filename.basic extra c.entry.comment.basic ++ rest')
    (hlen : data.length < 2 ^ 64) (hcl : ¬ Clash off l) (hrec : l.recorded force = (l.us, l.cs)) :
    (∃ i, Spec.item data j = some i ∧ Shows l i) ∧
      recordLength data j = (recordBytes c.header c.entry.filename.basic extra c.entry.comment.basic).length := by
  have hoff : off < 2 ^ 64 := by
    have := congrArg List.length hd
    rw [List.length_append] at this
    omega
  obtain ⟨r1, r2, r3, r4⟩ := g.record (own_noZip64 hown) hx hj
  have hdec := (r4 hown hoff).1 hcl
  rw [hrec] at hdec
  have hj' := hj
  rw [recordBytes] at hj'
  simp only [List.append_assoc] at hj'
  exact ⟨item_of r1 r3 hdec (g.agrees hown hd ha hj' r3 hlen) (g.local (own_noZip64 hown) hd ha) hlen, r2⟩

theorem forall₂_both {α β : Type} {R S T : α → β → Prop} {as : List α} {bs : List β} (h : List.Forall₂ R as bs)
    (h' : List.Forall₂ S as bs) (ht : ∀ a ∈ as, ∀ b, R a b → S a b → T a b) : List.Forall₂ T as bs := by
  induction h with
  | nil => exact .nil
  | cons h _ ih =>
    cases h' with
    | cons k h' => exact .cons (ht _ List.mem_cons_self _ h k) (ih h' fun a ha => ht a (List.mem_cons_of_mem _ ha))

/-- All of them. -/
theorem Directory.items_of {Q : Listing → Item → Prop} {force : Bool} {data out y : Bytes} (hd : data = out ++ y) :
    ∀ {ps : List (Listing × CdEntry)} {cd : Bytes} {offs : List Nat} {rest : Bytes} {j : Nat},
    Directory (ps.map Prod.snd) cd → data.drop j = cd ++ rest → List.Forall₂ (fun p off => At force out p off ∧
      ∀ (x a rest rest' extra : Bytes) (j : Nat), Good force off x p.1 p.2 → data = a ++ (x ++ rest) → a.length = off →
        extraAsBytes p.2.entry.extraFields = .ok extra →
        data.drop j = recordBytes p.2.header p.2.entry.filename.basic extra p.2.entry.comment.basic ++ rest' →
        (∃ i, Spec.item data j = some i ∧ Q p.1 i) ∧
          recordLength data j = (recordBytes p.2.header p.2.entry.filename.basic extra p.2.entry.comment.basic).length) ps offs →
    ∃ is, Spec.items data (j + cd.length) ps.length j = some is ∧ List.Forall₂ Q (ps.map Prod.fst) is := by
  intro ps
  induction ps with
  | nil =>
    intro cd offs rest j hdir _ _
    cases hdir
    exact ⟨[], by rw [List.length_nil, List.length_nil]; unfold Spec.items; exact if_pos rfl, .nil⟩
  | cons p ps ih =>
    intro cd offs rest j hdir hj hat
    cases hat with
    | cons h1 hat =>
      rename_i off offs
      obtain ⟨⟨a, x, r, ho, ha, g⟩, hitem⟩ := h1
      rw [List.map_cons] at hdir
      cases hdir with
      | cons hx hdir =>
        rename_i extra bs
        rw [List.append_assoc] at hj
        obtain ⟨⟨i, i1, i2⟩, i3⟩ := hitem x a (r ++ y) (bs ++ rest) extra j g (by rw [hd, ho]; simp only [List.append_assoc]) ha hx hj
        obtain ⟨is, k1, k2⟩ := ih hdir (drop_append_of_drop hj rfl) hat
        refine ⟨i :: is, ?_, .cons i2 k2⟩
        rw [List.length_cons]
        unfold Spec.items
        rw [List.length_append, ← Nat.add_assoc, i1, i3, k1]

theorem Directory.items {force : Bool} {data out y : Bytes} (hd : data = out ++ y) (hlen : data.length < 2 ^ 64) :
    ∀ {ps : List (Listing × CdEntry)} {cd : Bytes} {offs : List Nat} {rest : Bytes} {j : Nat},
    Directory (ps.map Prod.snd) cd → data.drop j = cd ++ rest → List.Forall₂ (At force out) ps offs →
    (∀ p ∈ ps, ∀ f ∈ p.1.entry.extraFields, OwnField f) →
    (∀ p ∈ ps, p.1.recorded force = (p.1.us, p.1.cs)) →
    List.Forall₂ (fun p off => ¬ Clash off p.1) ps offs →
    ∃ is, Spec.items data (j + cd.length) ps.length j = some is ∧ List.Forall₂ Shows (ps.map Prod.fst) is := by
  intro ps cd offs rest j hdir hj hat hown hsw hcl
  refine Directory.items_of (force := force) hd hdir hj (offs := offs) ?_
  exact forall₂_both hat hcl fun p hp off h1 h2 => ⟨h1, fun x a rest rest' extra j g hd ha hx hj =>
    g.item (hown p hp) hd ha hx hj hlen h2 (hsw p hp)⟩

/-- The extra field of a record, to the independent reader. -/
theorem Good.extra {force : Bool} {off : Nat} {x rest' : Bytes} {l : Listing} {c : CdEntry} {extra data : Bytes} {j : Nat}
    (g : Good force off x l c) (hdisk : diskFields c.entry.extraFields = 0) (hwf : ∀ f ∈ c.entry.extraFields, Framed f)
    (hx : extraAsBytes c.entry.extraFields = .ok extra)
    (hj : data.drop j = recordBytes c.header c.entry.filename.basic extra c.entry.comment.basic ++ rest') {i : Item}
    (hi : Spec.item data j = some i) : i.extra = c.entry.extraFields.map blockOf := by
  have d := g.describes
  have hxl : extra.length = c.header.extraFieldLength.toNat := by
    have := extraAsBytes_length hx
    rw [hdisk] at this
    rw [d.extraLen]
    omega
  have hnl : c.entry.filename.basic.length = c.header.fileNameLength.toNat := by rw [d.nameLen, d.filename]
  rw [recordBytes] at hj
  simp only [List.append_assoc] at hj
  have h1 := drop_append_of_drop hj (le32_length _)
  have h2 := drop_append_of_drop h1 (cdr_length _)
  have h3 := drop_append_of_drop h2 hnl
  obtain ⟨_, _, _, _, _, _, _, k8, k9, _⟩ := cdr_fields (take_of_drop h1 (cdr_length c.header)).symm
  have hw : window data (j + 46 + fieldAt data (j + 28) 2) (fieldAt data (j + 30) 2) = extra := by
    rw [k8, k9, window, show j + 46 = j + 4 + 42 by omega, take_of_drop h3 hxl]
  unfold Spec.item at hi
  rw [hw, blocksOf_of (blocks_of_framed hwf hx) rfl (n := data.length) (by
    have := congrArg List.length h3
    rw [List.length_drop, List.length_append] at this
    omega)] at hi
  split at hi
  · simp only at hi
    unfold itemAt at hi
    split at hi
    · split at hi
      · cases hi
      · split at hi
        · cases hi
          rfl
        · cases hi
    · cases hi
  · cases hi

end AsyncZip
