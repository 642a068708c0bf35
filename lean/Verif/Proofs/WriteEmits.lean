import Verif.Proofs.WriteCount
/-!
# What an interrupted call has written is a beginning of what it would have written
-/

namespace AsyncZip
open Spec Wr

/-- The call writes `b`, or a beginning of it if it fails. -/
def Emits {α : Type} (m : Wr α) (b : Bytes) : Prop := ∀ s, ∃ x, x <+: b ∧
  (m s).2.zw.writer.sink.bytes = s.zw.writer.sink.bytes ++ x ∧ ((∃ a, (m s).1 = .ok a) → x = b)

namespace Emits

theorem quiet {α : Type} {m : Wr α} (h : Quiet m) : Emits m [] := by
  intro s
  refine ⟨[], List.prefix_refl _, ?_, fun _ => rfl⟩
  rw [(h s).1, List.append_nil]

theorem writeAll (b : Bytes) : Emits (Wr.writeAll b) b := by
  intro s
  obtain ⟨x, rest, evs', h1, h2, h3⟩ := writeAll_spec b s
  refine ⟨x, ⟨rest, h1.symm⟩, ?_, ?_⟩
  · rw [h2]; rfl
  · rintro ⟨a, ha⟩
    rcases h3 with ⟨_, h3⟩ | h3
    · rw [h3, List.append_nil] at h1; exact h1.symm
    · rw [ha] at h3; exact absurd h3 not_winterrupted_ok

theorem bind' {α β : Type} {m : Wr α} {f : α → Wr β} {b c : Bytes} (hm : Emits m b)
    (hf : ∀ a s s', m s = (.ok a, s') → Emits (f a) c) : Emits (m >>= f) (b ++ c) := by
  intro s
  obtain ⟨x, h1, h2, h3⟩ := hm s
  rw [Wr.bind_def]
  cases hr : m s with
  | mk r s' =>
    rw [hr] at h2 h3
    cases r with
    | error e =>
      obtain ⟨t, ht⟩ := h1
      exact ⟨x, ⟨t ++ c, by rw [← ht, List.append_assoc]⟩, h2, fun ⟨a, ha⟩ => by cases ha⟩
    | ok a =>
      have hx := h3 ⟨a, rfl⟩
      obtain ⟨y, g1, g2, g3⟩ := hf a s s' hr s'
      refine ⟨b ++ y, List.prefix_append_right_inj b |>.2 g1, ?_, fun h => by rw [g3 h]⟩
      simp only at h2 ⊢
      rw [g2, h2, hx, List.append_assoc]

theorem bind {α β : Type} {m : Wr α} {f : α → Wr β} {b c : Bytes} (hm : Emits m b)
    (hf : ∀ a, Emits (f a) c) : Emits (m >>= f) (b ++ c) := bind' hm fun a _ _ _ => hf a

theorem bindQ {α β : Type} {m : Wr α} {f : α → Wr β} {c : Bytes} (hm : Quiet m)
    (hf : ∀ a s s', m s = (.ok a, s') → Emits (f a) c) : Emits (m >>= f) c := bind' (quiet hm) hf

theorem pushEntry (c : CdEntry) : Emits (pushEntry c) [] := by
  intro s
  refine ⟨[], List.prefix_refl _, ?_, fun _ => rfl⟩
  rw [pushEntry_eq, List.append_nil]
  rfl

end Emits

/-- Whatever happens to it, a whole entry writes a beginning of its local record, which is made from the prepared header and
fields. -/
theorem writeWhole_emits (C : Codec) (e : ZipEntry) (d : Bytes) (pre : Bool) (s : WSt) :
    (writeWhole C e d pre s).2.zw.writer.sink.bytes = s.zw.writer.sink.bytes ∨
    ∃ p em extra x, PreparedFacts C e d pre s.zw p em ∧ extraAsBytes p.entry.extraFields = .ok extra ∧
      x <+: localBytes p.lfh p.entry.filename.basic extra p.data ∧
      (writeWhole C e d pre s).2.zw.writer.sink.bytes = s.zw.writer.sink.bytes ++ x := by
  have hq := Quiet.wholePrepare C e d pre s
  cases hp : wholePrepare C e d pre s with
  | mk r s1 =>
    rw [hp] at hq
    cases r with
    | error x =>
      left
      unfold writeWhole
      rw [Wr.bind_err hp]
      exact congrArg (·.sink.bytes) hq.1
    | ok p =>
      obtain ⟨em, hpf, _⟩ := wholePrepare_ok hp
      right
      have hx : extraCountBytes p.entry.extraFields < 2 ^ 16 := by
        have := (wholeLfh_ok hpf.lfh).2.1
        rw [← this]; exact UInt16.toNat_lt _
      cases he : extraAsBytes p.entry.extraFields with
      | error y =>
        have := errsR_extra _ _ he
        subst this
        exact absurd he (noPR_extra hx)
      | ok extra =>
        have hE : Emits (do
            Wr.writeAll (le32 LFH_SIGNATURE)
            Wr.writeAll p.lfh.asSlice
            Wr.writeAll p.entry.filename.basic
            let extra ← Wr.lift (extraAsBytes p.entry.extraFields)
            Wr.writeAll extra
            Wr.writeAll p.data
            let (entry, header) ← Wr.lift (wholeLateBuilder p)
            pushEntry { header, entry }) (le32 LFH_SIGNATURE ++ (p.lfh.asSlice ++ (p.entry.filename.basic ++
              (extra ++ (p.data ++ []))))) := by
          refine (Emits.writeAll _).bind fun _ => (Emits.writeAll _).bind fun _ => (Emits.writeAll _).bind fun _ => ?_
          refine Emits.bindQ Quiet.lift fun a t t' h => ?_
          have := (wr_lift_ok h).1
          rw [he] at this
          cases this
          refine (Emits.writeAll _).bind fun _ => (Emits.writeAll _).bind fun _ => ?_
          exact Emits.bindQ Quiet.lift fun a _ _ _ => Emits.pushEntry _
        obtain ⟨x, h1, h2, _⟩ := hE s1
        refine ⟨p, em, extra, x, hpf, he, ?_, ?_⟩
        · rw [List.append_nil] at h1; exact h1
        · unfold writeWhole
          rw [Wr.bind_ok hp]
          simp only at h2
          rw [h2]
          exact congrArg (fun w => w.sink.bytes ++ x) hq.1

/-- Opening a stream writes a beginning of the local header. -/
theorem openStream_emits (C : Codec) (e : ZipEntry) (pre : Bool) (s : WSt) :
    (openStream C e pre s).2.zw.writer.sink.bytes = s.zw.writer.sink.bytes ∨
    ∃ h extra x, extraAsBytes (streamEntry s.zw.forceNoZip64 e).extraFields = .ok extra ∧
      x <+: localBytes h e.filename.basic extra [] ∧
      (openStream C e pre s).2.zw.writer.sink.bytes = s.zw.writer.sink.bytes ++ x := by
  have hrun : openStream C e pre s = (streamWriteLfh e >>= fun r => Wr.get >>= fun w' =>
      Wr.lift (encFromRaw C r.1.compression pre) >>= fun enc => pure
        ({ entry := r.1, hasher := Hasher.new, lfh := r.2, lfhOffset := s.zw.writer.offset, dataOffset := w'.writer.offset
           written := 0, enc, precompressed := pre } : EntryStream C)) s := rfl
  rw [hrun]
  have hrun2 : ∀ t, streamWriteLfh e t = (streamZip64 e >>= fun r =>
      Wr.lift (streamLfh (utf8WithoutAlternative r.1).2 (utf8WithoutAlternative r.1).1 r.2.1 r.2.2) >>= fun h => do
        Wr.writeAll (le32 LFH_SIGNATURE)
        Wr.writeAll h.asSlice
        Wr.writeAll (utf8WithoutAlternative r.1).2.filename.basic
        let extra ← Wr.lift (extraAsBytes (utf8WithoutAlternative r.1).2.extraFields)
        Wr.writeAll extra
        pure ((utf8WithoutAlternative r.1).2, h)) t := fun _ => rfl
  have hq := Quiet.streamZip64 e s
  cases hz : streamZip64 e s with
  | mk r s1 =>
    rw [hz] at hq
    have heq : s1.zw.writer.sink.bytes = s.zw.writer.sink.bytes := congrArg (·.sink.bytes) hq.1
    cases r with
    | error x =>
      left
      rw [Wr.bind_err (by rw [hrun2, Wr.bind_err hz])]
      exact heq
    | ok r =>
      obtain ⟨z1, z2, z3, z4, z5⟩ := streamZip64_ok (e' := r.1) (a := r.2.1) (b := r.2.2) hz
      cases hl : streamLfh (utf8WithoutAlternative r.1).2 (utf8WithoutAlternative r.1).1 r.2.1 r.2.2 with
      | error x =>
        left
        rw [Wr.bind_err (by
          rw [hrun2, Wr.bind_ok hz]
          exact Wr.bind_err (show Wr.lift _ s1 = (.error x, s1) by rw [hl]; rfl))]
        exact heq
      | ok h =>
        right
        have hx : extraCountBytes (utf8WithoutAlternative r.1).2.extraFields < 2 ^ 16 := by
          have := (streamLfh_ok hl).2.1
          rw [← this]; exact UInt16.toNat_lt _
        cases he : extraAsBytes (utf8WithoutAlternative r.1).2.extraFields with
        | error y =>
          have := errsR_extra _ _ he
          subst this
          exact absurd he (noPR_extra hx)
        | ok extra =>
          have hE : Emits (do
              Wr.writeAll (le32 LFH_SIGNATURE)
              Wr.writeAll h.asSlice
              Wr.writeAll (utf8WithoutAlternative r.1).2.filename.basic
              let extra ← Wr.lift (extraAsBytes (utf8WithoutAlternative r.1).2.extraFields)
              Wr.writeAll extra
              pure ((utf8WithoutAlternative r.1).2, h)) (le32 LFH_SIGNATURE ++ (h.asSlice ++
                ((utf8WithoutAlternative r.1).2.filename.basic ++ (extra ++ [])))) := by
            refine (Emits.writeAll _).bind fun _ => (Emits.writeAll _).bind fun _ => (Emits.writeAll _).bind fun _ => ?_
            refine Emits.bindQ Quiet.lift fun a t t' h => ?_
            have := (wr_lift_ok h).1
            rw [he] at this
            cases this
            exact (Emits.writeAll _).bind fun _ => Emits.quiet Quiet.pure
          have hE2 : Emits (do
              let r' ← (do
                Wr.writeAll (le32 LFH_SIGNATURE)
                Wr.writeAll h.asSlice
                Wr.writeAll (utf8WithoutAlternative r.1).2.filename.basic
                let extra ← Wr.lift (extraAsBytes (utf8WithoutAlternative r.1).2.extraFields)
                Wr.writeAll extra
                pure ((utf8WithoutAlternative r.1).2, h))
              let w' ← Wr.get
              let enc ← Wr.lift (encFromRaw C r'.1.compression pre)
              pure ({ entry := r'.1, hasher := Hasher.new, lfh := r'.2, lfhOffset := s.zw.writer.offset,
                      dataOffset := w'.writer.offset, written := 0, enc, precompressed := pre } : EntryStream C))
              ((le32 LFH_SIGNATURE ++ (h.asSlice ++ ((utf8WithoutAlternative r.1).2.filename.basic ++ (extra ++ [])))) ++ []) :=
            hE.bind fun _ => Emits.quiet (Quiet.bind Quiet.get fun _ => Quiet.bind Quiet.lift fun _ => Quiet.pure)
          obtain ⟨x, h1, h2, _⟩ := hE2 s1
          rw [Wr.bind_def, hrun2, Wr.bind_ok hz]
          rw [Wr.bind_ok (show Wr.lift _ s1 = (.ok h, s1) by rw [hl]; rfl)]
          refine ⟨h, extra, x, ?_, ?_, ?_⟩
          · rw [← z1]; exact he
          · rw [z1, List.append_nil] at h1
            exact h1
          · rw [← heq]; exact h2

/-! ## Without ZIP64 -/

theorem mem_putPath {c : UInt32} {u : Bytes} : ∀ {fs : List ExtraField} {f : ExtraField}, f ∈ putUnicodePath c u fs →
    f ∈ fs ∨ f = .unicodePath (.v1 c u) := by
  intro fs
  induction fs with
  | nil => intro f h; simp only [putUnicodePath, List.mem_singleton] at h; exact Or.inr h
  | cons g gs ih =>
    intro f h
    have key : f ∈ g :: putUnicodePath c u gs → f ∈ g :: gs ∨ f = .unicodePath (.v1 c u) := by
      intro h
      rcases List.mem_cons.1 h with rfl | h
      · exact Or.inl (List.mem_cons_self)
      · exact (ih h).imp (List.mem_cons_of_mem _) id
    cases g with
    | unicodePath i =>
      cases i with
      | v1 a b =>
        rcases List.mem_cons.1 h with rfl | h
        · exact Or.inr rfl
        · exact Or.inl (List.mem_cons_of_mem _ h)
      | unknown v d => exact Or.inl h
    | zip64 z => exact key h
    | unicodeComment i => exact key h
    | unknown i => exact key h

theorem mem_putComment {c : UInt32} {u : Bytes} : ∀ {fs : List ExtraField} {f : ExtraField}, f ∈ putUnicodeComment c u fs →
    f ∈ fs ∨ f = .unicodeComment (.v1 c u) := by
  intro fs
  induction fs with
  | nil => intro f h; simp only [putUnicodeComment, List.mem_singleton] at h; exact Or.inr h
  | cons g gs ih =>
    intro f h
    have key : f ∈ g :: putUnicodeComment c u gs → f ∈ g :: gs ∨ f = .unicodeComment (.v1 c u) := by
      intro h
      rcases List.mem_cons.1 h with rfl | h
      · exact Or.inl (List.mem_cons_self)
      · exact (ih h).imp (List.mem_cons_of_mem _) id
    cases g with
    | unicodeComment i =>
      cases i with
      | v1 a b =>
        rcases List.mem_cons.1 h with rfl | h
        · exact Or.inr rfl
        · exact Or.inl (List.mem_cons_of_mem _ h)
      | unknown v d => exact Or.inl h
    | zip64 z => exact key h
    | unicodePath i => exact key h
    | unknown i => exact key h

theorem mem_withUnicode {e : ZipEntry} {fs : List ExtraField} {f : ExtraField} (h : f ∈ withUnicode e fs) :
    f ∈ fs ∨ (∃ c u, f = .unicodePath (.v1 c u)) ∨ ∃ c u, f = .unicodeComment (.v1 c u) := by
  unfold withUnicode at h
  split at h
  · exact Or.inl h
  · have h1 : f ∈ withPath e.filename fs ∨ ∃ c u, f = .unicodeComment (.v1 c u) := by
      unfold withComment at h
      split at h
      · split at h
        · exact Or.inl h
        · exact (mem_putComment h).imp id fun h => ⟨_, _, h⟩
      · exact Or.inl h
    rcases h1 with h1 | h1
    · unfold withPath at h1
      split at h1
      · split at h1
        · exact Or.inl h1
        · rcases mem_putPath h1 with h1 | h1
          · exact Or.inl h1
          · exact Or.inr (Or.inl ⟨_, _, h1⟩)
      · exact Or.inl h1
    · exact Or.inr (Or.inr h1)

theorem noZip64_withUnicode {e : ZipEntry} {fs : List ExtraField} (h : NoZip64 fs) : NoZip64 (withUnicode e fs) := by
  intro f hf z
  rcases mem_withUnicode hf with hf | ⟨c, u, rfl⟩ | ⟨c, u, rfl⟩
  · exact h f hf z
  · intro h; cases h
  · intro h; cases h

/-- With ZIP64 forbidden, whatever a call writes begins like a local record without a ZIP64 field (unless the caller put one
there). -/
theorem runOp_force_local (C : Codec) (zw : ZipWriter) (op : Op) (hf : zw.forceNoZip64 = true) (hu : NoZip64 (userFields op)) :
    ∃ x, (runOp C zw op).2.writer.sink.bytes = zw.writer.sink.bytes ++ x ∧
      (x = [] ∨ ∃ (h : LocalFileHeader) (name : Bytes) (fs : List ExtraField) (extra tail : Bytes), NoZip64 fs ∧
        extraAsBytes fs = .ok extra ∧ x <+: localBytes h name extra tail) := by
  cases op with
  | comment c => exact ⟨[], (List.append_nil _).symm, Or.inl rfl⟩
  | whole e d pre evs =>
    have hr : (runOp C zw (.whole e d pre evs)).2 = (writeWhole C e d pre ⟨zw, evs⟩).2.zw := rfl
    rw [hr]
    rcases writeWhole_emits C e d pre ⟨zw, evs⟩ with h | ⟨p, em, extra, x, hp, he, hx, h⟩
    · exact ⟨[], by rw [h, List.append_nil], Or.inl rfl⟩
    · refine ⟨x, h, Or.inr ⟨p.lfh, _, p.entry.extraFields, extra, p.data, ?_, he, hx⟩⟩
      have hpe := hp.entry
      simp only at hpe
      have hb : ¬ Big em := fun hb => by
        have := hp.force (Or.inl hb)
        rw [hf] at this; cases this
      rw [hpe, placed, if_neg hb]
      refine noZip64_withUnicode ?_
      obtain ⟨l, _, _, _, hem, _⟩ := wholeMeasure_ok hp.measure
      rw [hem]
      exact hu
  | stream e pre evs acts fin =>
    have hn : NoZip64 (streamEntry zw.forceNoZip64 e).extraFields := by
      unfold streamEntry
      rw [hf]
      exact noZip64_withUnicode hu
    cases ho : openStream C e pre ⟨zw, evs⟩ with
    | mk r s =>
      cases r with
      | error y =>
        rw [runOp_open_error ho]
        have := openStream_emits C e pre ⟨zw, evs⟩
        rw [ho] at this
        rcases this with h | ⟨h, extra, x, he, hx, h'⟩
        · exact ⟨[], by rw [h, List.append_nil], Or.inl rfl⟩
        · exact ⟨x, h', Or.inr ⟨h, _, _, extra, [], hn, he, hx⟩⟩
      | ok st =>
        obtain ⟨hd, extra, enc, o1, o2, o3, o4, o5, _⟩ := openStream_ok ho
        have hext : ExtF (flushCount acts (runActs s.zw st acts).1) s.zw (runOp C zw (.stream e pre evs acts fin)).2 := by
          obtain ⟨rs, zw', st', em, f, h1, hlen, h2, h3⟩ := runActs_spec acts s.zw st
          rw [h1]
          cases fin with
          | abandon => rw [runOp_abandon ho h1]; exact h2.extF
          | close evs' =>
            cases hc : closeStream st' ⟨zw', evs'⟩ with
            | mk r t =>
              rw [runOp_close ho h1 hc]
              have := (Grows.closeStream st' ⟨zw', evs'⟩).extF
              rw [hc] at this
              exact h2.extF.trans this
        obtain ⟨y, hy, _⟩ := hext.bytes
        simp only at o4
        refine ⟨localBytes hd e.filename.basic extra [] ++ y, ?_, Or.inr ⟨hd, e.filename.basic, _, extra, y, hn, o2, ?_⟩⟩
        · rw [hy, o4]
          simp only [ZipWriter.put, List.append_assoc]
        · rw [localBytes_append]
          exact List.prefix_refl _

end AsyncZip
