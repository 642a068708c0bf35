import Verif.Spec.Irrelevant
import Verif.Proofs.WriteOps
/-!
# Two writers that differ in what does not matter
-/

namespace AsyncZip
open Spec Wr

/-- An entry without its level, compatibility and mark. -/
def core (e : ZipEntry) : ZipEntry :=
  { e with compressionLevel := .default, attributeCompatibility := .unix, dataDescriptor := false }

def coreCd (c : CdEntry) : CdEntry := { c with entry := core c.entry }

/-- A writer without that; `z` says whether it matters if it will write the ZIP64 end structures, `k` whether the comment does. -/
def coreW (z k : Bool) (w : ZipWriter) : ZipWriter :=
  { w with cdEntries := w.cdEntries.map coreCd, isZip64 := z && w.isZip64, commentOpt := bif k then w.commentOpt else none }

variable {z k : Bool}

def Sim (z k : Bool) (s s' : WSt) : Prop := coreW z k s.zw = coreW z k s'.zw ∧ s.evs = s'.evs

inductive RelR {α β : Type} (R : α → β → Prop) : Res α → Res β → Prop where
  | ok {a : α} {b : β} (h : R a b) : RelR R (.ok a) (.ok b)
  | error (x : Fail) : RelR R (.error x) (.error x)

def SimM (z k : Bool) {α β : Type} (R : α → β → Prop) (m : Wr α) (m' : Wr β) : Prop :=
  ∀ s s', Sim z k s s' → RelR R (m s).1 (m' s').1 ∧ Sim z k (m s).2 (m' s').2

theorem RelR.eq {α : Type} {r r' : Res α} (h : RelR Eq r r') : r = r' := by
  cases h with
  | ok h => rw [h]
  | error => rfl

theorem RelR.rfl {α : Type} (r : Res α) : RelR Eq r r := by
  cases r with
  | error x => exact .error x
  | ok a => exact .ok (Eq.refl a)

theorem SimM.pure {α β : Type} {R : α → β → Prop} {a : α} {b : β} (h : R a b) :
    SimM z k R (Pure.pure a : Wr α) (Pure.pure b) := fun _ _ hs => ⟨.ok h, hs⟩

theorem SimM.lift {α β : Type} {R : α → β → Prop} {a : Res α} {b : Res β} (h : RelR R a b) :
    SimM z k R (Wr.lift a) (Wr.lift b) := fun _ _ hs => ⟨h, hs⟩

theorem SimM.fail {α β : Type} {R : α → β → Prop} (x : Fail) : SimM z k R (Wr.fail x : Wr α) (Wr.fail x) :=
  fun _ _ hs => ⟨.error x, hs⟩

theorem SimM.bind {α β γ δ : Type} {R : α → β → Prop} {S : γ → δ → Prop} {m : Wr α} {m' : Wr β} {f : α → Wr γ} {f' : β → Wr δ}
    (h : SimM z k R m m') (hf : ∀ a b, R a b → SimM z k S (f a) (f' b)) : SimM z k S (m >>= f) (m' >>= f') := by
  intro s s' hs
  obtain ⟨h1, h2⟩ := h s s' hs
  show RelR S (Bind.bind m f s).1 (Bind.bind m' f' s').1 ∧ Sim z k (Bind.bind m f s).2 (Bind.bind m' f' s').2
  simp only [Bind.bind]
  generalize m s = x at h1 h2
  generalize m' s' = y at h1 h2
  obtain ⟨r, t⟩ := x
  obtain ⟨r', t'⟩ := y
  cases h1 with
  | ok h => exact hf _ _ h _ _ h2
  | error x => exact ⟨.error x, h2⟩

theorem SimM.get : SimM z k (fun w w' => coreW z k w = coreW z k w') Wr.get Wr.get := fun _ _ hs => ⟨.ok hs.1, hs⟩

theorem SimM.modify {f f' : ZipWriter → ZipWriter} (h : ∀ w w', coreW z k w = coreW z k w' → coreW z k (f w) = coreW z k (f' w')) :
    SimM z k Eq (Wr.modify f) (Wr.modify f') := fun _ _ hs => ⟨.ok (Eq.refl _), h _ _ hs.1, hs.2⟩

theorem coreW_writer {w w' : ZipWriter} (h : coreW z k w = coreW z k w') : w.writer = w'.writer := congrArg (·.writer) h
theorem coreW_force {w w' : ZipWriter} (h : coreW z k w = coreW z k w') : w.forceNoZip64 = w'.forceNoZip64 := congrArg (·.forceNoZip64) h
theorem coreW_zip {w w' : ZipWriter} (h : coreW z k w = coreW z k w') : (z && w.isZip64) = (z && w'.isZip64) := congrArg (·.isZip64) h
theorem coreW_comment {w w' : ZipWriter} (h : coreW z k w = coreW z k w') :
    (bif k then w.commentOpt else none) = bif k then w'.commentOpt else none := congrArg (·.commentOpt) h
theorem coreW_entries {w w' : ZipWriter} (h : coreW z k w = coreW z k w') : w.cdEntries.map coreCd = w'.cdEntries.map coreCd :=
  congrArg (·.cdEntries) h
theorem coreW_count {w w' : ZipWriter} (h : coreW z k w = coreW z k w') : w.cdEntries.length = w'.cdEntries.length := by
  have := congrArg List.length (coreW_entries h)
  rwa [List.length_map, List.length_map] at this

theorem coreW_mk {w w' : ZipWriter} (h1 : w.writer = w'.writer) (h2 : w.cdEntries.map coreCd = w'.cdEntries.map coreCd)
    (h3 : w.forceNoZip64 = w'.forceNoZip64) (h4 : (z && w.isZip64) = (z && w'.isZip64))
    (h5 : (bif k then w.commentOpt else none) = bif k then w'.commentOpt else none) :
    coreW z k w = coreW z k w' := by
  unfold coreW
  rw [h2]
  obtain ⟨a, b, c, d, e⟩ := w
  obtain ⟨a', b', c', d', e'⟩ := w'
  simp only at h1 h3 h4 h5 ⊢
  rw [h1, h3, h4, h5]

theorem coreW_put {w w' : ZipWriter} (h : coreW z k w = coreW z k w') (x : OffsetWriter) :
    coreW z k { w with writer := x } = coreW z k { w' with writer := x } := by
  have h1 := coreW_entries h
  have h2 := coreW_force h
  have h3 := coreW_zip h
  have h4 := coreW_comment h
  exact coreW_mk rfl h1 h2 h3 h4

theorem SimM.setZip64 : SimM z k Eq (Wr.modify fun w => { w with isZip64 := true }) (Wr.modify fun w => { w with isZip64 := true }) :=
  SimM.modify fun _ _ h => by
    have h1 := coreW_entries h
    have h2 := coreW_force h
    have h3 := coreW_writer h
    have h4 := coreW_comment h
    exact coreW_mk h3 h1 h2 rfl h4

theorem SimM.writeAll (b : Bytes) : SimM z k Eq (Wr.writeAll b) (Wr.writeAll b) := by
  intro s s' hs
  unfold Wr.writeAll
  rw [coreW_writer hs.1, hs.2]
  exact ⟨RelR.rfl _, coreW_put hs.1 _, rfl⟩

theorem SimM.eq_bind {α γ δ : Type} {S : γ → δ → Prop} {m m' : Wr α} {f : α → Wr γ} {f' : α → Wr δ} (h : SimM z k Eq m m')
    (hf : ∀ a, SimM z k S (f a) (f' a)) : SimM z k S (m >>= f) (m' >>= f') :=
  SimM.bind h fun a b hab => by rw [← hab]; exact hf a

/-! ## The functions of the writer -/

/-- The same entry but for what does not matter. -/
def SimE (e e' : ZipEntry) : Prop := core e = core e'

theorem core_mk {e e' : ZipEntry} (h : SameFace e e') (h1 : e.crc32 = e'.crc32) (h2 : e.uncompressedSize = e'.uncompressedSize)
    (h3 : e.compressedSize = e'.compressedSize) : SimE e e' := by
  obtain ⟨a1, a2, a3, a4, a5, a6, a7, a8, a9, a10, a11, a12, a13⟩ := e
  obtain ⟨b1, b2, b3, b4, b5, b6, b7, b8, b9, b10, b11, b12, b13⟩ := e'
  obtain ⟨c1, c2, c3, c4, c5, c6, c7⟩ := h
  simp only at c1 c2 c3 c4 c5 c6 c7 h1 h2 h3
  subst c1 c2 c3 c4 c5 c6 c7 h1 h2 h3
  rfl

theorem SimE.face {e e' : ZipEntry} (h : SimE e e') : SameFace e e' :=
  ⟨congrArg (·.filename) h, congrArg (·.comment) h, congrArg (·.compression) h, congrArg (·.lastModificationDate) h,
    congrArg (·.internalFileAttribute) h, congrArg (·.externalFileAttribute) h, congrArg (·.extraFields) h⟩
theorem SimE.crc {e e' : ZipEntry} (h : SimE e e') : e.crc32 = e'.crc32 := congrArg (·.crc32) h
theorem SimE.us {e e' : ZipEntry} (h : SimE e e') : e.uncompressedSize = e'.uncompressedSize := congrArg (·.uncompressedSize) h
theorem SimE.cs {e e' : ZipEntry} (h : SimE e e') : e.compressedSize = e'.compressedSize := congrArg (·.compressedSize) h

theorem SameFace.withExtra {e e' : ZipEntry} (h : SameFace e e') (fs : List ExtraField) :
    SameFace { e with extraFields := fs } { e' with extraFields := fs } :=
  ⟨h.filename, h.comment, h.compression, h.date, h.internal, h.external, rfl⟩

theorem SimE.withExtra {e e' : ZipEntry} (h : SimE e e') {fs fs' : List ExtraField} (hf : fs = fs') :
    SimE { e with extraFields := fs } { e' with extraFields := fs' } := by
  subst hf
  exact core_mk (SameFace.withExtra h.face fs) h.crc h.us h.cs

theorem SimE.unicode {e e' : ZipEntry} (h : SimE e e') : (utf8WithoutAlternative e).1 = (utf8WithoutAlternative e').1 ∧
    SimE (utf8WithoutAlternative e).2 (utf8WithoutAlternative e').2 := by
  have f := h.face
  have hp : SimE (addUnicodePath e) (addUnicodePath e') := by
    unfold addUnicodePath
    rw [f.filename, f.extraFields]
    split
    · split
      · exact h
      · exact core_mk ⟨rfl, f.comment, f.compression, f.date, f.internal, f.external, rfl⟩ h.crc h.us h.cs
    · exact h
  have hc : SimE (addUnicodeComment (addUnicodePath e)) (addUnicodeComment (addUnicodePath e')) := by
    have f := hp.face
    unfold addUnicodeComment
    rw [f.comment, f.extraFields]
    split
    · split
      · exact hp
      · exact core_mk ⟨f.filename, rfl, f.compression, f.date, f.internal, f.external, rfl⟩ hp.crc hp.us hp.cs
    · exact hp
  have hb : bothUtf8 e = bothUtf8 e' := by unfold bothUtf8; rw [f.filename, f.comment]
  unfold utf8WithoutAlternative
  rw [hb]
  split
  · exact ⟨rfl, h⟩
  · exact ⟨rfl, hc⟩

theorem SimE.needed {e e' : ZipEntry} (h : SimE e e') : asNeededToExtract e = asNeededToExtract e' := by
  unfold asNeededToExtract ZipEntry.dir
  rw [h.face.filename, h.face.compression]

theorem sim_enforceZip64 : SimM z k Eq enforceZip64 enforceZip64 := by
  unfold enforceZip64
  refine SimM.bind SimM.get fun w w' h => ?_
  rw [coreW_force h]
  split
  · exact SimM.fail _
  · exact SimM.setZip64

theorem sim_enforceZip64Sizes {e e' : ZipEntry} (h : SimE e e') :
    SimM z k (fun a b => SimE a.1 b.1 ∧ a.2 = b.2) (enforceZip64Sizes e) (enforceZip64Sizes e') := by
  unfold enforceZip64Sizes
  rw [h.us, h.cs]
  split
  · exact SimM.pure ⟨h, rfl⟩
  · exact SimM.eq_bind sim_enforceZip64 fun _ => SimM.pure ⟨core_mk
      ⟨h.face.filename, h.face.comment, h.face.compression, h.face.date, h.face.internal, h.face.external, h.face.extraFields⟩
      h.crc rfl rfl, rfl⟩

theorem sim_enforceZip64Offset (b : Option Zip64Field) (n : Nat) : SimM z k Eq (enforceZip64Offset b n) (enforceZip64Offset b n) := by
  unfold enforceZip64Offset
  split
  · exact SimM.pure rfl
  · exact SimM.eq_bind sim_enforceZip64 fun _ => SimM.pure rfl

theorem rel_bind {α β γ δ : Type} {R : α → β → Prop} {S : γ → δ → Prop} {r : Res α} {r' : Res β} {f : α → Res γ} {f' : β → Res δ}
    (h : RelR R r r') (hf : ∀ a b, R a b → RelR S (f a) (f' b)) : RelR S (r >>= f) (r' >>= f') := by
  cases h with
  | ok h => exact hf _ _ h
  | error x => exact .error x

theorem rel_placeBuilder {e e' : ZipEntry} (h : SimE e e') (b : Option Zip64Field) :
    RelR (fun a b => SimE a.1 b.1 ∧ a.2 = b.2) (placeBuilder e b) (placeBuilder e' b) := by
  unfold placeBuilder
  cases b with
  | none => exact .ok ⟨h, rfl⟩
  | some b =>
    simp only
    split
    · exact .ok ⟨h, rfl⟩
    · refine rel_bind (RelR.rfl _) fun f f' hf => ?_
      subst hf
      exact .ok ⟨h.withExtra (by rw [h.face.extraFields]), rfl⟩

theorem wholeLfh_sim {e e' : ZipEntry} (h : SimE e e') (u : Bool) : wholeLfh e u = wholeLfh e' u := by
  unfold wholeLfh
  rw [h.needed, h.us, h.cs, h.crc, h.face.extraFields, h.face.filename, h.face.compression, h.face.date]

theorem wholeCdh_sim {e e' : ZipEntry} (h : SimE e e') (l : LocalFileHeader) (n : Nat) : wholeCdh e l n = wholeCdh e' l n := by
  unfold wholeCdh
  rw [h.face.comment, h.face.internal, h.face.external]

structure SimP (p p' : Prepared) : Prop where
  entry : SimE p.entry p'.entry
  data : p.data = p'.data
  builder : p.builder = p'.builder
  lfh : p.lfh = p'.lfh
  cdh : p.cdh = p'.cdh

theorem sim_wholePrepare {C : Codec} {e e' : ZipEntry} {d : Bytes} {pre : Bool}
    (h : RelR (fun a b => SimE a.1 b.1 ∧ a.2 = b.2) (wholeMeasure C e d pre) (wholeMeasure C e' d pre)) :
    SimM z k SimP (wholePrepare C e d pre) (wholePrepare C e' d pre) := by
  unfold wholePrepare
  refine SimM.bind (SimM.lift h) ?_
  rintro ⟨e, d⟩ ⟨e', d'⟩ ⟨he, hd⟩
  simp only at he hd
  subst hd
  refine SimM.bind (sim_enforceZip64Sizes he) ?_
  rintro ⟨e, b⟩ ⟨e', b'⟩ ⟨he, hb⟩
  simp only at he hb
  subst hb
  refine SimM.bind SimM.get fun w w' hw => ?_
  rw [coreW_writer hw]
  refine SimM.eq_bind (sim_enforceZip64Offset _ _) ?_
  rintro ⟨b, n⟩
  refine SimM.bind (SimM.lift (rel_placeBuilder he b)) ?_
  rintro ⟨e, b⟩ ⟨e', b'⟩ ⟨he, hb⟩
  simp only at he hb
  subst hb
  obtain ⟨u1, u2⟩ := he.unicode
  simp only
  rw [← wholeLfh_sim u2, u1]
  refine SimM.eq_bind (SimM.lift (RelR.rfl _)) fun l => ?_
  rw [← wholeCdh_sim u2]
  refine SimM.eq_bind (SimM.lift (RelR.rfl _)) fun c => ?_
  exact SimM.pure ⟨u2, rfl, rfl, rfl, rfl⟩

theorem rel_wholeLateBuilder {p p' : Prepared} (h : SimP p p') :
    RelR (fun a b => SimE a.1 b.1 ∧ a.2 = b.2) (wholeLateBuilder p) (wholeLateBuilder p') := by
  unfold wholeLateBuilder
  rw [h.builder, h.cdh, h.entry.face.extraFields]
  cases p'.builder with
  | none => exact .ok ⟨h.entry, rfl⟩
  | some b =>
    simp only
    refine rel_bind (RelR.rfl _) fun f f' hf => ?_
    subst hf
    refine rel_bind (RelR.rfl _) fun n n' hn => ?_
    subst hn
    exact .ok ⟨h.entry.withExtra rfl, rfl⟩

theorem sim_pushEntry {c c' : CdEntry} (h : coreCd c = coreCd c') : SimM z k Eq (pushEntry c) (pushEntry c') := by
  unfold pushEntry
  refine SimM.eq_bind (SimM.modify fun w w' hw => ?_) fun _ => ?_
  · have h1 : (w.cdEntries ++ [c]).map coreCd = (w'.cdEntries ++ [c']).map coreCd := by
      rw [List.map_append, List.map_append, coreW_entries hw, List.map_singleton, List.map_singleton, h]
    have h2 := coreW_force hw
    have h3 := coreW_writer hw
    have h4 := coreW_comment hw
    have h5 := coreW_zip hw
    exact coreW_mk h3 h1 h2 h5 h4
  · refine SimM.bind SimM.get fun w w' hw => ?_
    rw [coreW_count hw, coreW_force hw]
    split
    · split
      · exact SimM.fail _
      · exact SimM.setZip64
    · exact SimM.pure rfl

theorem coreCd_mk {e e' : ZipEntry} (h : SimE e e') (c : CentralDirectoryRecord) : coreCd ⟨c, e⟩ = coreCd ⟨c, e'⟩ := by
  unfold coreCd
  have : core e = core e' := h
  rw [this]

theorem sim_writeWhole {C : Codec} {e e' : ZipEntry} {d : Bytes} {pre : Bool}
    (h : RelR (fun a b => SimE a.1 b.1 ∧ a.2 = b.2) (wholeMeasure C e d pre) (wholeMeasure C e' d pre)) :
    SimM z k Eq (writeWhole C e d pre) (writeWhole C e' d pre) := by
  unfold writeWhole
  refine SimM.bind (sim_wholePrepare h) fun p p' hp => ?_
  rw [hp.lfh, hp.data, hp.entry.face.filename, hp.entry.face.extraFields]
  refine SimM.eq_bind (SimM.writeAll _) fun _ => SimM.eq_bind (SimM.writeAll _) fun _ => SimM.eq_bind (SimM.writeAll _) fun _ =>
    SimM.eq_bind (SimM.lift (RelR.rfl _)) fun _ => SimM.eq_bind (SimM.writeAll _) fun _ => SimM.eq_bind (SimM.writeAll _) fun _ =>
    SimM.bind (SimM.lift (rel_wholeLateBuilder hp)) ?_
  rintro ⟨e, c⟩ ⟨e', c'⟩ ⟨he, hc⟩
  simp only at he hc
  subst hc
  exact sim_pushEntry (coreCd_mk he c)

/-! ## Streams -/

structure SimS {C : Codec} (st st' : EntryStream C) : Prop where
  entry : SimE st.entry st'.entry
  hasher : st.hasher = st'.hasher
  lfh : st.lfh = st'.lfh
  lfhOffset : st.lfhOffset = st'.lfhOffset
  dataOffset : st.dataOffset = st'.dataOffset
  written : st.written = st'.written
  enc : st.enc = st'.enc
  pre : st.precompressed = st'.precompressed

theorem sim_streamZip64 {e e' : ZipEntry} (h : SimE e e') :
    SimM z k (fun a b => SimE a.1 b.1 ∧ a.2 = b.2) (streamZip64 e) (streamZip64 e') := by
  unfold streamZip64
  refine SimM.bind SimM.get fun w w' hw => ?_
  rw [coreW_force hw]
  split
  · refine SimM.eq_bind SimM.setZip64 fun _ => SimM.pure ⟨h.withExtra ?_, rfl⟩
    rw [h.us, h.cs, h.face.extraFields]
  · rw [h.us, h.cs]
    split
    · exact SimM.fail _
    · exact SimM.pure ⟨h, rfl⟩

theorem streamLfh_sim {e e' : ZipEntry} (h : SimE e e') (u : Bool) (a b : UInt32) : streamLfh e u a b = streamLfh e' u a b := by
  unfold streamLfh
  rw [h.needed, h.crc, h.face.extraFields, h.face.filename, h.face.compression, h.face.date]

theorem sim_streamWriteLfh {e e' : ZipEntry} (h : SimE e e') :
    SimM z k (fun a b => SimE a.1 b.1 ∧ a.2 = b.2) (streamWriteLfh e) (streamWriteLfh e') := by
  unfold streamWriteLfh
  refine SimM.bind (sim_streamZip64 h) ?_
  rintro ⟨e, a, b⟩ ⟨e', a', b'⟩ ⟨he, hab⟩
  simp only [Prod.mk.injEq] at he hab
  obtain ⟨rfl, rfl⟩ := hab
  obtain ⟨u1, u2⟩ := he.unicode
  simp only
  rw [← streamLfh_sim u2, u1, u2.face.filename, u2.face.extraFields]
  exact SimM.eq_bind (SimM.lift (RelR.rfl _)) fun _ => SimM.eq_bind (SimM.writeAll _) fun _ =>
    SimM.eq_bind (SimM.writeAll _) fun _ => SimM.eq_bind (SimM.writeAll _) fun _ => SimM.eq_bind (SimM.lift (RelR.rfl _)) fun _ =>
    SimM.eq_bind (SimM.writeAll _) fun _ => SimM.pure ⟨u2, rfl⟩

theorem sim_openStream {C : Codec} {e e' : ZipEntry} (h : SimE e e') (pre : Bool) :
    SimM z k SimS (openStream C e pre) (openStream C e' pre) := by
  unfold openStream
  refine SimM.bind SimM.get fun w w' hw => ?_
  refine SimM.bind (sim_streamWriteLfh h) ?_
  rintro ⟨e, l⟩ ⟨e', l'⟩ ⟨he, hl⟩
  simp only at he hl
  subst hl
  refine SimM.bind SimM.get fun v v' hv => ?_
  rw [he.face.compression, coreW_writer hw, coreW_writer hv]
  refine SimM.eq_bind (SimM.lift (RelR.rfl _)) fun enc => ?_
  exact SimM.pure ⟨he, rfl, rfl, rfl, rfl, rfl, rfl, rfl⟩

/-- Results of calls on open streams. -/
def SimO (z k : Bool) {C : Codec} {α : Type} (x y : α × ZipWriter × EntryStream C) : Prop :=
  x.1 = y.1 ∧ coreW z k x.2.1 = coreW z k y.2.1 ∧ SimS x.2.2 y.2.2

theorem sim_streamWrite {C : Codec} {zw zw' : ZipWriter} {st st' : EntryStream C} (hz : coreW z k zw = coreW z k zw') (hs : SimS st st')
    (buf : Bytes) (evs : List Ev) : SimO z k (streamWrite zw st buf evs) (streamWrite zw' st' buf evs) := by
  obtain ⟨e, a, b, c, d, w, enc, p⟩ := st
  obtain ⟨e', a', b', c', d', w', enc', p'⟩ := st'
  obtain ⟨h1, h2, h3, h4, h5, h6, h7, h8⟩ := hs
  simp only at h1 h2 h3 h4 h5 h6 h7 h8
  subst h2 h3 h4 h5 h6 h7 h8
  unfold streamWrite
  rw [coreW_writer hz]
  cases enc with
  | none =>
    simp only
    split
    · exact ⟨rfl, coreW_put hz _, ⟨h1, rfl, rfl, rfl, rfl, rfl, rfl, rfl⟩⟩
    · exact ⟨rfl, coreW_put hz _, ⟨h1, rfl, rfl, rfl, rfl, rfl, rfl, rfl⟩⟩
  | some s =>
    simp only
    split
    · exact ⟨rfl, hz, ⟨h1, rfl, rfl, rfl, rfl, rfl, rfl, rfl⟩⟩
    · split
      · exact ⟨rfl, coreW_put hz _, ⟨h1, rfl, rfl, rfl, rfl, rfl, rfl, rfl⟩⟩
      · exact ⟨rfl, coreW_put hz _, ⟨h1, rfl, rfl, rfl, rfl, rfl, rfl, rfl⟩⟩

theorem sim_streamFlush {C : Codec} {zw zw' : ZipWriter} {st st' : EntryStream C} (hz : coreW z k zw = coreW z k zw') (hs : SimS st st')
    (evs : List Ev) : SimO z k (streamFlush zw st evs) (streamFlush zw' st' evs) := by
  obtain ⟨e, a, b, c, d, w, enc, p⟩ := st
  obtain ⟨e', a', b', c', d', w', enc', p'⟩ := st'
  obtain ⟨h1, h2, h3, h4, h5, h6, h7, h8⟩ := hs
  simp only at h1 h2 h3 h4 h5 h6 h7 h8
  subst h2 h3 h4 h5 h6 h7 h8
  unfold streamFlush
  rw [coreW_writer hz]
  cases enc with
  | none => exact ⟨rfl, coreW_put hz _, ⟨h1, rfl, rfl, rfl, rfl, rfl, rfl, rfl⟩⟩
  | some s =>
    simp only
    split
    · exact ⟨rfl, hz, ⟨h1, rfl, rfl, rfl, rfl, rfl, rfl, rfl⟩⟩
    · split
      · exact ⟨rfl, coreW_put hz _, ⟨h1, rfl, rfl, rfl, rfl, rfl, rfl, rfl⟩⟩
      · exact ⟨rfl, coreW_put hz _, ⟨h1, rfl, rfl, rfl, rfl, rfl, rfl, rfl⟩⟩

theorem sim_streamShut {C : Codec} {zw zw' : ZipWriter} {st st' : EntryStream C} (hz : coreW z k zw = coreW z k zw') (hs : SimS st st')
    (evs : List Ev) : SimO z k (streamShut zw st evs) (streamShut zw' st' evs) := by
  obtain ⟨e, a, b, c, d, w, enc, p⟩ := st
  obtain ⟨e', a', b', c', d', w', enc', p'⟩ := st'
  obtain ⟨h1, h2, h3, h4, h5, h6, h7, h8⟩ := hs
  simp only at h1 h2 h3 h4 h5 h6 h7 h8
  subst h2 h3 h4 h5 h6 h7 h8
  unfold streamShut
  rw [coreW_writer hz]
  cases enc with
  | none => exact ⟨rfl, hz, ⟨h1, rfl, rfl, rfl, rfl, rfl, rfl, rfl⟩⟩
  | some s => exact ⟨rfl, coreW_put hz _, ⟨h1, rfl, rfl, rfl, rfl, rfl, rfl, rfl⟩⟩

theorem sim_runActs {C : Codec} : ∀ (acts : List StreamAct) {zw zw' : ZipWriter} {st st' : EntryStream C},
    coreW z k zw = coreW z k zw' → SimS st st' → SimO z k (runActs zw st acts) (runActs zw' st' acts)
  | [], _, _, _, _, hz, hs => ⟨rfl, hz, hs⟩
  | .write buf evs :: acts, _, _, _, _, hz, hs => by
    obtain ⟨h1, h2, h3⟩ := sim_streamWrite hz hs buf evs
    obtain ⟨k1, k2, k3⟩ := sim_runActs acts h2 h3
    unfold runActs
    simp only
    exact ⟨by simp only; rw [h1, k1], k2, k3⟩
  | .flush evs :: acts, _, _, _, _, hz, hs => by
    obtain ⟨h1, h2, h3⟩ := sim_streamFlush hz hs evs
    obtain ⟨k1, k2, k3⟩ := sim_runActs acts h2 h3
    unfold runActs
    simp only
    exact ⟨by simp only; rw [h1, k1], k2, k3⟩
  | .shut evs :: acts, _, _, _, _, hz, hs => by
    obtain ⟨h1, h2, h3⟩ := sim_streamShut hz hs evs
    obtain ⟨k1, k2, k3⟩ := sim_runActs acts h2 h3
    unfold runActs
    simp only
    exact ⟨by simp only; rw [h1, k1], k2, k3⟩

theorem SimS.final {C : Codec} {st st' : EntryStream C} (hs : SimS st st') : SimE st.finalEntry st'.finalEntry := by
  unfold EntryStream.finalEntry
  rw [hs.pre]
  split
  · exact hs.entry
  · have f := hs.entry.face
    exact core_mk ⟨f.filename, f.comment, f.compression, f.date, f.internal, f.external, f.extraFields⟩
      (by show st.hasher.finalize = st'.hasher.finalize; rw [hs.hasher])
      (by show UInt64.ofNat st.written = UInt64.ofNat st'.written; rw [hs.written]) hs.entry.cs

theorem rel_streamSizes {e e' : ZipEntry} (h : SimE e e') (force : Bool) (l : LocalFileHeader) (n off : Nat) :
    RelR (fun a b => SimE a.1 b.1 ∧ a.2 = b.2) (streamSizes force e l n off) (streamSizes force e' l n off) := by
  unfold streamSizes
  rw [h.us, h.face.extraFields]
  split
  · split
    · exact .error _
    · exact .ok ⟨h, rfl⟩
  · simp only
    refine rel_bind (RelR.rfl _) fun k k' hk => ?_
    subst hk
    have f := h.face
    exact .ok ⟨core_mk ⟨f.filename, f.comment, f.compression, f.date, f.internal, f.external, rfl⟩ h.crc rfl h.cs, rfl⟩

theorem streamCdh_sim {e e' : ZipEntry} (h : SimE e e') (l : LocalFileHeader) (a b c : UInt32) :
    streamCdh e l a b c = streamCdh e' l a b c := by
  unfold streamCdh
  rw [h.crc, h.face.comment, h.face.internal, h.face.external]

theorem sim_closeStream {C : Codec} {st st' : EntryStream C} (hs : SimS st st') :
    SimM z k Eq (closeStream st) (closeStream st') := by
  unfold closeStream
  rw [hs.enc]
  refine SimM.eq_bind ?_ fun _ => ?_
  · cases st'.enc with
    | none => exact SimM.pure rfl
    | some s => exact SimM.writeAll _
  · refine SimM.bind SimM.get fun w w' hw => ?_
    rw [coreW_force hw, coreW_writer hw, hs.lfh, hs.dataOffset, hs.lfhOffset]
    refine SimM.bind (SimM.lift (rel_streamSizes hs.final _ _ _ _)) ?_
    rintro ⟨e, l, a, b, c⟩ ⟨e', l', a', b', c'⟩ ⟨he, hx⟩
    simp only [Prod.mk.injEq] at he hx
    obtain ⟨rfl, rfl, rfl, rfl⟩ := hx
    simp only
    rw [← streamCdh_sim he, he.crc]
    exact SimM.eq_bind (SimM.writeAll _) fun _ => SimM.eq_bind (SimM.writeAll _) fun _ => SimM.eq_bind (SimM.writeAll _) fun _ =>
      SimM.eq_bind (SimM.writeAll _) fun _ => SimM.eq_bind (SimM.lift (RelR.rfl _)) fun k => sim_pushEntry (coreCd_mk he k)

/-! ## Closing -/

theorem sim_writeCdEntry {c c' : CdEntry} (h : coreCd c = coreCd c') : SimM z k Eq (writeCdEntry c) (writeCdEntry c') := by
  have h1 : c.header = c'.header := congrArg (·.header) h
  have h2 : SimE c.entry c'.entry := show (coreCd c).entry = (coreCd c').entry by rw [h]
  unfold writeCdEntry
  rw [h1, h2.face.filename, h2.face.extraFields, h2.face.comment]
  exact SimM.eq_bind (SimM.writeAll _) fun _ => SimM.eq_bind (SimM.writeAll _) fun _ => SimM.eq_bind (SimM.writeAll _) fun _ =>
    SimM.eq_bind (SimM.lift (RelR.rfl _)) fun _ => SimM.eq_bind (SimM.writeAll _) fun _ => SimM.writeAll _

theorem sim_writeCdEntries : ∀ {cs cs' : List CdEntry}, cs.map coreCd = cs'.map coreCd →
    SimM z k Eq (writeCdEntries cs) (writeCdEntries cs')
  | [], [], _ => SimM.pure rfl
  | [], _ :: _, h => by cases h
  | _ :: _, [], h => by cases h
  | c :: cs, c' :: cs', h => by
    rw [List.map_cons, List.map_cons, List.cons.injEq] at h
    unfold writeCdEntries
    exact SimM.eq_bind (sim_writeCdEntry h.1) fun _ => sim_writeCdEntries h.2

theorem sim_closeArchive : SimM true true Eq closeArchive closeArchive := by
  unfold closeArchive
  refine SimM.bind SimM.get fun w w' hw => ?_
  simp only
  rw [coreW_writer hw, coreW_count hw, (show w.commentOpt = w'.commentOpt from coreW_comment hw)]
  refine SimM.eq_bind (sim_writeCdEntries (coreW_entries hw)) fun _ => ?_
  refine SimM.bind SimM.get fun v v' hv => ?_
  rw [coreW_writer hv]
  refine SimM.eq_bind ?_ fun _ => ?_
  · unfold closeCheckOffset
    split
    · refine SimM.bind SimM.get fun u u' hu => ?_
      rw [coreW_force hu]
      split
      · exact SimM.fail _
      · exact SimM.setZip64
    · exact SimM.pure rfl
  · refine SimM.bind SimM.get fun u u' hu => ?_
    have hu := coreW_zip hu
    rw [Bool.true_and, Bool.true_and] at hu
    rw [hu]
    refine SimM.eq_bind ?_ fun _ => SimM.eq_bind (SimM.writeAll _) fun _ => SimM.eq_bind (SimM.writeAll _) fun _ =>
      SimM.eq_bind (SimM.writeAll _) fun _ => SimM.bind SimM.get fun x x' hx => SimM.pure (by rw [coreW_writer hx])
    split
    · unfold writeZip64End
      refine SimM.bind SimM.get fun x x' hx => ?_
      simp only
      rw [coreW_writer hx]
      exact SimM.eq_bind (SimM.writeAll _) fun _ => SimM.eq_bind (SimM.writeAll _) fun _ => SimM.eq_bind (SimM.writeAll _) fun _ =>
        SimM.writeAll _
    · exact SimM.pure rfl

/-! ## Programs -/

theorem measure_whole {C : Codec} {e e' : ZipEntry} (h : SameFace e e')
    (hl : e.compression ≠ .stored → e.compressionLevel = e'.compressionLevel) (d : Bytes) :
    RelR (fun a b => SimE a.1 b.1 ∧ a.2 = b.2) (wholeMeasure C e d false) (wholeMeasure C e' d false) := by
  unfold wholeMeasure
  rw [if_neg (by decide), if_neg (by decide)]
  refine rel_bind (R := Eq) ?_ fun x x' hx => ?_
  · have : wholeCompress C { e with uncompressedSize := UInt64.ofNat d.length, crc32 := crc32 d } d =
        wholeCompress C { e' with uncompressedSize := UInt64.ofNat d.length, crc32 := crc32 d } d := by
      unfold wholeCompress
      simp only
      rw [h.compression]
      split
      · rfl
      · rename_i hn
        unfold compress
        simp only
        rw [hl (by rw [h.compression]; exact hn)]
    rw [this]
    exact RelR.rfl _
  · subst hx
    exact .ok ⟨core_mk ⟨h.filename, h.comment, h.compression, h.date, h.internal, h.external, h.extraFields⟩ rfl rfl rfl, rfl⟩

theorem measure_ready {C : Codec} {e e' : ZipEntry} (h : SameFace e e') (h1 : e.crc32 = e'.crc32)
    (h2 : e.uncompressedSize = e'.uncompressedSize) (d : Bytes) :
    RelR (fun a b => SimE a.1 b.1 ∧ a.2 = b.2) (wholeMeasure C e d true) (wholeMeasure C e' d true) := by
  unfold wholeMeasure
  rw [if_pos rfl, if_pos rfl]
  exact .ok ⟨core_mk ⟨h.filename, h.comment, h.compression, h.date, h.internal, h.external, h.extraFields⟩ h1 h2 rfl, rfl⟩

theorem sim_runOp {C : Codec} {zw zw' : ZipWriter} {op op' : Op} (hz : coreW z k zw = coreW z k zw') (h : Alike op op') :
    (runOp C zw op).1 = (runOp C zw' op').1 ∧ coreW z k (runOp C zw op).2 = coreW z k (runOp C zw' op').2 := by
  cases h with
  | comment c =>
    have h1 := coreW_entries hz
    have h2 := coreW_force hz
    have h3 := coreW_writer hz
    have h4 := coreW_zip hz
    exact ⟨rfl, coreW_mk h3 h1 h2 h4 rfl⟩
  | @whole e e' d evs h hl =>
    obtain ⟨k1, k2⟩ := sim_writeWhole (measure_whole (C := C) h hl d) ⟨zw, evs⟩ ⟨zw', evs⟩ ⟨hz, rfl⟩
    exact ⟨congrArg OpResult.whole k1.eq, k2.1⟩
  | @ready e e' d evs h h1 h2 =>
    obtain ⟨k1, k2⟩ := sim_writeWhole (measure_ready (C := C) h h1 h2 d) ⟨zw, evs⟩ ⟨zw', evs⟩ ⟨hz, rfl⟩
    exact ⟨congrArg OpResult.whole k1.eq, k2.1⟩
  | @stream e e' pre evs acts fin h h1 h2 h3 =>
    obtain ⟨k1, k2⟩ := sim_openStream (C := C) (core_mk h h1 h2 h3) pre ⟨zw, evs⟩ ⟨zw', evs⟩ ⟨hz, rfl⟩
    cases ho : openStream C e pre ⟨zw, evs⟩ with
    | mk r s =>
    cases ho' : openStream C e' pre ⟨zw', evs⟩ with
    | mk r' s' =>
    rw [ho, ho'] at k1 k2
    simp only at k1 k2
    cases k1 with
    | error x =>
      rw [runOp_open_error ho, runOp_open_error ho']
      exact ⟨rfl, k2.1⟩
    | ok hst =>
      rename_i st st'
      obtain ⟨a1, a2, a3⟩ := sim_runActs acts k2.1 hst
      cases fin with
      | abandon =>
        rw [runOp_abandon ho rfl, runOp_abandon ho' rfl]
        exact ⟨by rw [a1], a2⟩
      | close evs' =>
        obtain ⟨c1, c2⟩ := sim_closeStream a3 ⟨_, evs'⟩ ⟨_, evs'⟩ ⟨a2, rfl⟩
        rw [runOp_close ho rfl rfl, runOp_close ho' rfl rfl]
        have hr := congr (congrArg (OpResult.stream (.ok ())) a1) (congrArg some c1.eq)
        exact ⟨hr, c2.1⟩

theorem sim_runOps {C : Codec} {ops ops' : List Op} (h : List.Forall₂ Alike ops ops') : ∀ {zw zw' : ZipWriter},
    coreW z k zw = coreW z k zw' → (runOps C zw ops).1 = (runOps C zw' ops').1 ∧ coreW z k (runOps C zw ops).2 = coreW z k (runOps C zw' ops').2 := by
  induction h with
  | nil => exact fun hz => ⟨rfl, hz⟩
  | cons h _ ih =>
    intro zw zw' hz
    obtain ⟨h1, h2⟩ := sim_runOp (C := C) hz h
    obtain ⟨k1, k2⟩ := ih h2
    refine ⟨?_, k2⟩
    have hr := congr (congrArg List.cons h1) k1
    exact hr

end AsyncZip
