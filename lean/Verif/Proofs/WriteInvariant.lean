import Verif.Proofs.WriteHistoryStream
/-!
# The invariant of a history of calls

`Body` is what the output before the central directory looks like: the listed entries in order, each described by its
directory record, possibly with left-overs of failed or abandoned calls in between.
-/

namespace AsyncZip
open Wr Spec

/-- The conditions on one listed entry standing at offset `off`. -/
structure Good (force : Bool) (off : Nat) (x : Bytes) (l : Listing) (c : CdEntry) : Prop where
  describes : Describes force off l c
  bytes : LocalRec force x l c
  fits : extraCountBytes c.entry.extraFields < 2 ^ 16
  small : force = true → l.us ≤ 0xFFFFFFFF ∧ l.cs ≤ 0xFFFFFFFF ∧ off ≤ 0xFFFFFFFF

/-- The output so far, with the entries in it. Left-overs occur only if `J`. -/
inductive Body (J : Prop) (force : Bool) : Bytes → List (Listing × CdEntry) → Prop where
  | nil : Body J force [] []
  | snoc {out : Bytes} {ps : List (Listing × CdEntry)} {x : Bytes} {l : Listing} {c : CdEntry} (h : Body J force out ps)
      (g : Good force out.length x l c) : Body J force (out ++ x) (ps ++ [(l, c)])
  | junk {out : Bytes} {ps : List (Listing × CdEntry)} (j : Bytes) (hj : J) (h : Body J force out ps) :
      Body J force (out ++ j) ps

/-- What one call does. -/
inductive Step (C : Codec) (zw : ZipWriter) (op : Op) (r : OpResult) (zw' : ZipWriter) : Prop where
  | listed (l : Listing) (c : CdEntry) (x : Bytes) (asked : Asked C op r l) (good : Good zw.forceNoZip64 zw.writer.offset x l c)
      (bytes : zw'.writer.sink.bytes = zw.writer.sink.bytes ++ x) (offset : zw'.writer.offset = zw.writer.offset + x.length)
      (entries : zw'.cdEntries = zw.cdEntries ++ [c]) (comment : zw'.commentOpt = zw.commentOpt)
      (zip : zw.forceNoZip64 = false → NeedsZip64 l → zw'.isZip64 = true)
      (count : zw.forceNoZip64 = false → 0xFFFF < zw'.cdEntries.length → zw'.isZip64 = true)
      (only : zw'.isZip64 = true → zw.isZip64 = true ∨ zw.forceNoZip64 = false ∧
        (NeedsZip64 l ∨ 0xFFFFFFFF < zw.writer.offset ∨ 0xFFFF < zw'.cdEntries.length))
  | other (h : NotListed r) (bytes : Fine r → zw'.writer = zw.writer)
      (entries : zw'.cdEntries = zw.cdEntries) (only : Fine r → zw'.isZip64 = zw.isZip64)

theorem gt_of_not_le64 {x : UInt64} (h : x > 0xFFFFFFFF) : ¬ x ≤ 0xFFFFFFFF := by
  rw [UInt64.le_iff_toNat_le]
  have := UInt64.lt_iff_toNat_lt.1 h
  omega

theorem le_of_not_gt64 {x : UInt64} (h : ¬ x > 0xFFFFFFFF) : x ≤ 0xFFFFFFFF := by
  rw [UInt64.le_iff_toNat_le]
  have : ¬ (0xFFFFFFFF : UInt64).toNat < x.toNat := fun h' => h (UInt64.lt_iff_toNat_lt.2 h')
  omega

theorem runOp_step (C : Codec) (zw : ZipWriter) (op : Op) : Step C zw op (runOp C zw op).1 (runOp C zw op).2 := by
  cases op with
  | comment c => exact .other trivial (fun _ => rfl) rfl (fun _ => rfl)
  | whole e data pre evs =>
    cases h : writeWhole C e data pre ⟨zw, evs⟩ with
    | mk r s' =>
      have hr : runOp C zw (.whole e data pre evs) = (.whole r, s'.zw) := by simp only [runOp, h]
      rw [hr]
      by_cases hl : Listed r
      · obtain ⟨l, c, x, em, h1, h2, rfl, h4, h5, h6, h7⟩ := whole_step h hl
        have hstr : l.streamed = false := by cases h1 <;> rfl
        refine .listed l c x h1 ⟨h4, h5, h7, ?_⟩ ?_ ?_ ?_ ?_ ?_ ?_ ?_
        · intro hf
          refine ⟨le_of_not_gt64 fun hn => ?_, le_of_not_gt64 fun hn => ?_, Classical.byContradiction fun hn => ?_⟩
          · have := h6 (Or.inl (Or.inl hn)); rw [hf] at this; cases this
          · have := h6 (Or.inl (Or.inr hn)); rw [hf] at this; cases this
          · have := h6 (Or.inr hn); rw [hf] at this; cases this
        · rw [h2]; rfl
        · rw [h2]; rfl
        · rw [h2]; rfl
        · rw [h2]; rfl
        · intro hf hn
          rw [h2]
          rcases hn with hn | hn
          · rw [hstr] at hn; cases hn
          · have : Big ({ e with crc32 := l.crc, uncompressedSize := l.us, compressedSize := l.cs } : ZipEntry) := hn
            simp [pushed, prepZip64, ZipWriter.put, this]
        · intro hf hn
          rw [h2] at hn ⊢
          have hn : 0xFFFF < zw.cdEntries.length + 1 := by
            have : (pushed c ((prepZip64 zw { e with crc32 := l.crc, uncompressedSize := l.us, compressedSize := l.cs }).put
              x)).cdEntries.length = zw.cdEntries.length + 1 := by simp [pushed, prepZip64, ZipWriter.put]
            simp only [this] at hn
            exact hn
          have hf' : (prepZip64 zw { e with crc32 := l.crc, uncompressedSize := l.us, compressedSize := l.cs }).forceNoZip64
            = false := hf
          have hd : decide (0xFFFF < zw.cdEntries.length + 1) = true := by simpa using hn
          show (_ || (decide (0xFFFF < zw.cdEntries.length + 1) && !zw.forceNoZip64)) = true
          rw [hd, hf]; simp
        · intro hz
          have hlen : s'.zw.cdEntries.length = zw.cdEntries.length + 1 := by
            rw [h2]; simp [pushed, prepZip64, ZipWriter.put]
          rw [hlen]
          rw [h2] at hz
          have hz : ((zw.isZip64 || (decide (Big { e with crc32 := l.crc, uncompressedSize := l.us, compressedSize := l.cs }) ||
            decide (¬ zw.writer.offset ≤ 0xFFFFFFFF))) || (decide (0xFFFF < zw.cdEntries.length + 1) && !zw.forceNoZip64)) =
              true := hz
          simp only [Bool.or_eq_true, Bool.and_eq_true, decide_eq_true_eq, Bool.not_eq_true'] at hz
          rcases hz with (hz | hz | hz) | ⟨hz, hf⟩
          · exact Or.inl hz
          · exact Or.inr ⟨h6 (Or.inl hz), Or.inl (Or.inr hz)⟩
          · exact Or.inr ⟨h6 (Or.inr hz), Or.inr (Or.inl (Nat.not_le.1 hz))⟩
          · exact Or.inr ⟨hf, Or.inr (Or.inr hz)⟩
      · refine .other hl (fun h => absurd h hl) ?_ (fun h => absurd h hl)
        have := ListsOr.writeWhole C e data pre ⟨zw, evs⟩
        rw [h] at this
        exact this.resolve_left hl
  | stream e pre evs acts fin =>
    cases h : openStream C e pre ⟨zw, evs⟩ with
    | mk r s =>
      have hk := KeepsCd.openStream C e pre ⟨zw, evs⟩
      rw [h] at hk
      cases r with
      | error x =>
        rw [runOp_open_error h]
        exact .other trivial (fun h => h.elim) hk (fun h => h.elim)
      | ok st =>
        obtain ⟨rs, zw', st', em, f, h1, hlen, h2, h3⟩ := runActs_spec acts s.zw st
        have hk' : zw'.cdEntries = zw.cdEntries := by rw [h2.writer]; exact hk
        cases fin with
        | abandon =>
          rw [runOp_abandon h h1]
          exact .other trivial (fun h => h.elim) hk' (fun h => h.elim)
        | close evs' =>
          cases hc : closeStream st' ⟨zw', evs'⟩ with
          | mk r t =>
            rw [runOp_close h h1 hc]
            by_cases hl : Listed r
            · obtain ⟨l, c, x, q1, q2, q3, q4, q5, q6⟩ := stream_step h h1 hc hl
              have hstr : l.streamed = true := by cases q1 <;> rfl
              refine .listed l c x q1 ⟨q3, q4, q5, q6⟩ ?_ ?_ ?_ ?_ ?_ ?_ ?_
              · rw [q2]; rfl
              · rw [q2]; rfl
              · rw [q2]; rfl
              · rw [q2]; rfl
              · intro hf hn
                rw [q2]
                simp [pushed, ZipWriter.addFlushes, ZipWriter.put, hf]
              · intro hf hn
                rw [q2]
                simp [pushed, ZipWriter.addFlushes, ZipWriter.put, hf]
              · intro hz
                rw [q2] at hz
                have hz : ((zw.isZip64 || !zw.forceNoZip64) || (decide (0xFFFF < zw.cdEntries.length + 1) && !zw.forceNoZip64)) =
                  true := hz
                simp only [Bool.or_eq_true, Bool.and_eq_true, decide_eq_true_eq, Bool.not_eq_true'] at hz
                rcases hz with (hz | hz) | ⟨_, hz⟩
                · exact Or.inl hz
                · exact Or.inr ⟨hz, Or.inl (Or.inl hstr)⟩
                · exact Or.inr ⟨hz, Or.inl (Or.inl hstr)⟩
            · refine .other hl (fun h => absurd h hl) ?_ (fun h => absurd h hl)
              have := ListsOr.closeStream st' ⟨zw', evs'⟩
              rw [hc] at this
              exact (this.resolve_left hl).trans hk'

/-- What is known of a writer whose output since the start is `out` and which lists the entries `ps`. -/
structure State (J : Prop) (zw : ZipWriter) (out : Bytes) (ps : List (Listing × CdEntry)) : Prop where
  body : Body J zw.forceNoZip64 out ps
  offset : zw.writer.offset = out.length
  entries : zw.cdEntries = ps.map Prod.snd
  zip : zw.forceNoZip64 = false → (∃ p ∈ ps, NeedsZip64 p.1) ∨ 0xFFFF < ps.length → zw.isZip64 = true

theorem State.new (J : Prop) (zw : ZipWriter) (h1 : zw.writer.offset = 0) (h2 : zw.cdEntries = []) : State J zw [] [] := by
  refine ⟨.nil, h1, h2, ?_⟩
  rintro _ (⟨p, hp, _⟩ | h)
  · simp at hp
  · simp at h

theorem runOps_state (C : Codec) (J : Prop) (ops : List Op) : ∀ (zw : ZipWriter) (out0 : Bytes) (ps0 : List (Listing × CdEntry)),
    State J zw out0 ps0 → (J ∨ ∀ r ∈ (runOps C zw ops).1, Fine r) →
    ∃ out ps, State J (runOps C zw ops).2 (out0 ++ out) (ps0 ++ ps) ∧
      (runOps C zw ops).2.writer.sink.bytes = zw.writer.sink.bytes ++ out ∧
      Program C ops (runOps C zw ops).1 (ps.map Prod.fst) ∧
      ((∀ r ∈ (runOps C zw ops).1, Fine r) → (runOps C zw ops).2.isZip64 = true → zw.isZip64 = true ∨
        zw.forceNoZip64 = false ∧ ((∃ p ∈ ps, NeedsZip64 p.1) ∨ 0xFFFFFFFF < (runOps C zw ops).2.writer.offset ∨
          0xFFFF < (ps0 ++ ps).length)) := by
  induction ops with
  | nil =>
    intro zw out0 ps0 h _
    exact ⟨[], [], by simpa [runOps] using h, by simp [runOps], .nil, fun _ hz => Or.inl hz⟩
  | cons op ops ih =>
    intro zw out0 ps0 h hJ
    have hx := runOp_ext C zw op
    have hs := runOp_step C zw op
    cases hr : runOp C zw op with
    | mk r zw1 =>
      rw [hr] at hx hs
      cases hrs : runOps C zw1 ops with
      | mk rs zw2 =>
        have hrun : runOps C zw (op :: ops) = (r :: rs, zw2) := by simp only [runOps, hr, hrs]
        rw [hrun] at hJ ⊢
        simp only at hx hs hJ ⊢
        have hf : zw1.forceNoZip64 = zw.forceNoZip64 := hx.force
        have hJ' : J ∨ ∀ r' ∈ (runOps C zw1 ops).1, Fine r' := by
          rw [hrs]
          exact hJ.imp_right fun h r' hr' => h r' (List.mem_cons_of_mem _ hr')
        cases hs with
        | listed l c x asked good bytes offset entries comment zip count only =>
          have hst : State J zw1 (out0 ++ x) (ps0 ++ [(l, c)]) := by
            refine ⟨?_, ?_, ?_, ?_⟩
            · rw [hf]
              refine .snoc h.body ?_
              rw [← h.offset]; exact good
            · rw [offset, h.offset, List.length_append]
            · rw [entries, h.entries]; simp
            · intro hff hn
              rw [hf] at hff
              rcases hn with ⟨p, hp, hn⟩ | hn
              · rcases List.mem_append.1 hp with hp | hp
                · exact hx.zip64 (h.zip hff (Or.inl ⟨p, hp, hn⟩))
                · simp only [List.mem_singleton] at hp
                  subst hp
                  exact zip hff hn
              · apply count hff
                rw [entries, h.entries]
                simpa using hn
          obtain ⟨out, ps, g1, g2, g3, g4⟩ := ih zw1 _ _ hst hJ'
          rw [hrs] at g1 g2 g3 g4
          refine ⟨x ++ out, (l, c) :: ps, ?_, ?_, ?_, ?_⟩
          · simpa using g1
          · rw [g2, bytes, List.append_assoc]
          · exact .listed asked g3
          · intro hfine hz
            have hlen : (ps0 ++ [(l, c)] ++ ps).length = (ps0 ++ (l, c) :: ps).length := by
              rw [List.append_assoc]; rfl
            rw [hlen, hf] at g4
            rcases g4 (fun r' hr' => hfine r' (List.mem_cons_of_mem _ hr')) hz with hz1 | ⟨hff, hz1⟩
            · rcases only hz1 with hz0 | ⟨hff, hn | hn | hn⟩
              · exact Or.inl hz0
              · exact Or.inr ⟨hff, Or.inl ⟨_, List.mem_cons_self, hn⟩⟩
              · refine Or.inr ⟨hff, Or.inr (Or.inl ?_)⟩
                have h1 := g1.offset
                have h2 := h.offset
                rw [List.length_append, List.length_append] at h1
                show 0xFFFFFFFF < zw2.writer.offset
                have h1 : zw2.writer.offset = _ := h1
                omega
              · refine Or.inr ⟨hff, Or.inr (Or.inr ?_)⟩
                rw [entries, h.entries] at hn
                simp only [List.length_append, List.length_map, List.length_cons, List.length_nil] at hn ⊢
                omega
            · refine Or.inr ⟨hff, hz1.imp_left ?_⟩
              rintro ⟨p, hp, hn⟩
              exact ⟨p, List.mem_cons_of_mem _ hp, hn⟩
        | other hn bytes entries only =>
          obtain ⟨x, hx1, hx2⟩ := hx.bytes
          have hst : State J zw1 (out0 ++ x) ps0 := by
            refine ⟨?_, ?_, ?_, ?_⟩
            · rw [hf]
              rcases hJ with hJ | hJ
              · exact .junk x hJ h.body
              · have hw := bytes (hJ r List.mem_cons_self)
                rw [hw] at hx2
                have : x = [] := List.length_eq_zero_iff.1 (by omega)
                rw [this, List.append_nil]
                exact h.body
            · rw [hx2, h.offset, List.length_append]
            · rw [entries, h.entries]
            · intro hff hn
              rw [hf] at hff
              exact hx.zip64 (h.zip hff hn)
          obtain ⟨out, ps, g1, g2, g3, g4⟩ := ih zw1 _ _ hst hJ'
          rw [hrs] at g1 g2 g3 g4
          refine ⟨x ++ out, ps, ?_, ?_, ?_, ?_⟩
          · simpa using g1
          · rw [g2, hx1, List.append_assoc]
          · exact .other hn g3
          · intro hfine hz
            rw [hf, only (hfine r List.mem_cons_self)] at g4
            exact g4 (fun r' hr' => hfine r' (List.mem_cons_of_mem _ hr')) hz

/-- What a body says of each entry in it. -/
theorem Body.mem {J : Prop} {force : Bool} {out : Bytes} {ps : List (Listing × CdEntry)} (h : Body J force out ps) :
    ∀ p ∈ ps, ∃ a x rest, out = a ++ (x ++ rest) ∧ Good force a.length x p.1 p.2 := by
  induction h with
  | nil => intro p hp; simp at hp
  | @snoc out ps x l c _ g ih =>
    intro p hp
    rcases List.mem_append.1 hp with hp | hp
    · obtain ⟨a, y, rest, h1, h2⟩ := ih p hp
      exact ⟨a, y, rest ++ x, by rw [h1]; simp, h2⟩
    · simp only [List.mem_singleton] at hp
      subst hp
      exact ⟨out, x, [], by simp, g⟩
  | junk j _ _ ih =>
    intro p hp
    obtain ⟨a, y, rest, h1, h2⟩ := ih p hp
    exact ⟨a, y, rest ++ j, by rw [h1]; simp, h2⟩

/-! ## The comment -/

theorem Ext.keepsComment {a b : ZipWriter} (h : Ext a b) : b.commentOpt = a.commentOpt := h.comment

theorem runOp_comment (C : Codec) (zw : ZipWriter) (op : Op) :
    (runOp C zw op).2.commentOpt = finalComment zw.commentOpt [op] := by
  cases op with
  | whole e data pre evs => exact (Grows.writeWhole C e data pre ⟨zw, evs⟩).comment
  | comment c => rfl
  | stream e pre evs acts fin =>
    show _ = zw.commentOpt
    have ho := (Grows.openStream C e pre ⟨zw, evs⟩).comment
    cases h : openStream C e pre ⟨zw, evs⟩ with
    | mk r s =>
      rw [h] at ho
      cases r with
      | error x => rw [runOp_open_error h]; exact ho
      | ok st =>
        obtain ⟨rs, zw', st', em, f, h1, hl, h2, h3⟩ := runActs_spec acts s.zw st
        have hk : zw'.commentOpt = zw.commentOpt := by rw [h2.writer]; exact ho
        cases fin with
        | abandon => rw [runOp_abandon h h1]; exact hk
        | close evs' =>
          have hc := (Grows.closeStream st' ⟨zw', evs'⟩).comment
          rw [runOp_close h h1 (t := (closeStream st' ⟨zw', evs'⟩).2) (r := (closeStream st' ⟨zw', evs'⟩).1) rfl]
          exact hc.trans hk

theorem runOps_comment (C : Codec) (ops : List Op) : ∀ zw : ZipWriter,
    (runOps C zw ops).2.commentOpt = finalComment zw.commentOpt ops := by
  induction ops with
  | nil => intro zw; rfl
  | cons op ops ih =>
    intro zw
    simp only [runOps]
    rw [ih, runOp_comment]
    cases op <;> rfl

end AsyncZip
