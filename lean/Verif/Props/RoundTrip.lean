import Verif.Proofs.RoundTrip
import Verif.Props.Limits
import Verif.Proofs.SampleRuns
/-!
# C36, C41, C42, C45: what was written is what is read
-/

namespace AsyncZip
open Spec Rd

/-! ## Counting -/

theorem runOp_tooMany (C : Codec) (zw : ZipWriter) (op : Op) (hf : zw.forceNoZip64 = true)
    (hn : zw.cdEntries.length ≤ 0xFFFF) (ht : ¬ TooMany (runOp C zw op).1) : (runOp C zw op).2.cdEntries.length ≤ 0xFFFF := by
  have hstep := runOp_step C zw op
  generalize hr : (runOp C zw op).1 = r at hstep ht
  cases hstep with
  | other _ _ he => rw [he]; exact hn
  | listed l c x asked _ _ _ he _ _ _ =>
    rw [he, List.length_append, List.length_singleton]
    refine Nat.le_of_not_lt fun hlt => ?_
    have key : ∀ q : Res Unit, ((runOp C zw op).1 = .whole q ∨ ∃ rs, (runOp C zw op).1 = .stream (.ok ()) rs (some q)) →
        Listed q → q = .error (.err (.zip64Needed .tooManyFiles)) := fun q h1 h2 => by
      rw [C38_reports_count C zw op q h1 h2, if_pos ⟨hlt, hf⟩]
    cases asked with
    | whole e d evs q stored hl hs => exact ht (key q (Or.inl hr) hl)
    | wholePre e d evs q hl => exact ht (key q (Or.inl hr) hl)
    | stream e evs evs' acts srs q fed stored hl hs hfed => exact ht (key q (Or.inr ⟨srs, hr⟩) hl)
    | streamPre e evs evs' acts srs q hl => exact ht (key q (Or.inr ⟨srs, hr⟩) hl)

theorem runOps_tooMany (C : Codec) (ops : List Op) : ∀ zw : ZipWriter, zw.forceNoZip64 = true →
    zw.cdEntries.length ≤ 0xFFFF → (∀ r ∈ (runOps C zw ops).1, ¬ TooMany r) → (runOps C zw ops).2.cdEntries.length ≤ 0xFFFF := by
  induction ops with
  | nil => exact fun _ _ h _ => h
  | cons op ops ih =>
    intro zw hf hn ht
    refine ih _ ((runOp_ext C zw op).force.trans hf)
      (runOp_tooMany C zw op hf hn (ht _ List.mem_cons_self)) fun r hr => ht r (List.mem_cons_of_mem _ hr)

/-! ## The opened archive -/

theorem archiveComment_valid (ops : List Op) : utf8Valid (archiveComment ops) = true := by
  unfold archiveComment
  cases finalComment none ops with
  | none => rfl
  | some c => exact c.valid

/-- What opening shows of one entry. -/
structure Shown (b : Build) (force : Bool) (p : Listing × CdEntry) (off : Nat) (e : StoredZipEntry) : Prop where
  reads : Reads b p.2 e
  readAs : ReadAs force off p.1 e
  name : e.entry.filename = nameRead p.1.entry
  comment : e.entry.comment = commentRead p.1.entry
  extra : e.entry.extraFields = trim p.2.entry.extraFields
  headerSize : e.headerSize = 30 + p.1.entry.filename.basic.length + extraCountBytes p.2.entry.extraFields

theorem Finished.own {C : Codec} {zw : ZipWriter} {ops : List Op} {evs : List Ev} {bytes out cd : Bytes} {J : Prop}
    {ps : List (Listing × CdEntry)} {offs : List Nat} {z : Bool} (fin : Finished C zw ops evs bytes J out ps offs cd z)
    (hown : ∀ op ∈ ops, ∀ f ∈ userFields op, OwnField f) : ∀ p ∈ ps, ∀ f ∈ p.1.entry.extraFields, OwnField f := by
  intro p hp f hf
  obtain ⟨op, ho, hfs⟩ := Program.fields fin.program p.1 (List.mem_map_of_mem hp)
  rw [hfs] at hf
  exact hown op ho f hf

theorem Finished.shown {b : Build} {C : Codec} {sink : Sink} {zw : ZipWriter} {ops : List Op} {evs : List Ev}
    {bytes out cd : Bytes} {J : Prop} {ps : List (Listing × CdEntry)} {offs : List Nat} {z : Bool}
    (fin : Finished C zw ops evs bytes J out ps offs cd z) (h : Created sink zw)
    (hleg : Legible ops (runArchive C zw ops evs).1 (runArchive C zw ops evs).2.2.isZip64 bytes)
    (hclash : List.Forall₂ (fun p off => ¬ Clash off p.1) ps offs) (hv : ps.length ≤ b.maxVecEntries) :
    ∃ f : ZipFile, (∀ s : RState, s.data = bytes → Interrupted (openFile b s).1 ∨ (openFile b s).1 = .ok f) ∧
      List.Forall₂ (fun (q : (Listing × CdEntry) × Nat) e => Shown b zw.forceNoZip64 q.1 q.2 e) (ps.zip offs) f.entries ∧
      f.zip64 = (runArchive C zw ops evs).2.2.isZip64 ∧ f.comment = ⟨.utf8, archiveComment ops, none⟩ := by
  obtain ⟨hown, hcom, hlast, hloc, hcount, hsize⟩ := hleg
  rw [← fin.zip] at hloc ⊢
  rw [endPosition] at hlast hloc
  rw [← commentBytes_eq] at hcom hlast hloc
  obtain ⟨_, he, _⟩ := Created.facts h
  obtain ⟨es, hopen, hes⟩ := fin.opens (b := b) (fin.own hown) hclash hlast hcom hloc (fun hf _ => by
    have := runOps_tooMany C ops zw hf (by rw [he]; exact Nat.zero_le _) hcount
    rw [fin.entries, List.length_map] at this
    exact this) hsize hv
  refine ⟨{ entries := es, zip64 := z, comment := ZipString.new (commentBytes (finalComment none ops)) .utf8 },
    fun s hs => ?_, hes.imp fun _ _ h => ⟨h.1, h.2.1, h.2.2.1, h.2.2.2.1, h.2.2.2.2.1, h.2.2.2.2.2⟩, rfl, ?_⟩
  · obtain ⟨pos', hrun⟩ := hopen s.pos
    exact (hrun.of_chunkIndep (openFile_chunkIndep b) s hs rfl).imp id fun h => h.1
  · simp only [commentBytes_eq, ZipString.new, archiveComment_valid, if_true]

/-- The local header of an entry that is where it should be. -/
theorem At.header {force : Bool} {out y : Bytes} {p : Listing × CdEntry} {off : Nat} (h : At force out p off) :
    OccursAt (out ++ y) sigLocal off ∧ OccursAt (out ++ y) p.1.entry.filename.basic (off + 30) := by
  obtain ⟨a, x, rest, ho, ha, g⟩ := h
  obtain ⟨hd, fs, extra, hl, _, hx⟩ := g.bytes
  have h0 : (out ++ y).drop off = le32 LFH_SIGNATURE ++ (hd.asSlice ++ (p.1.entry.filename.basic ++ (extra ++ (p.1.stored ++
      (tailBytes force p.1 ++ (rest ++ y)))))) := by
    rw [ho, List.append_assoc, List.drop_append_of_le_length (Nat.le_of_eq ha.symm), ← ha, List.drop_length, List.nil_append, hx,
      localBytes]
    simp only [List.append_assoc]
  have h1 := drop_append_of_drop h0 (le32_length _)
  have h2 := drop_append_of_drop h1 (lfh_length hd)
  refine ⟨?_, ?_⟩
  · unfold OccursAt
    rw [show sigLocal.length = 4 by decide, take_of_drop h0 (le32_length _)]
    decide
  · unfold OccursAt
    exact take_of_drop h2 rfl

/-! ## C36, C41 -/

/-- C36, C41. Every archive that says what it means (`Legible`) opens, whatever failed, was cancelled or abandoned on the
way, however the source answers; it lists exactly the listed calls of the program, in order, each as `ReadAs` says; the
offset it shows for an entry is where a local header with that entry's name starts; and it has the comment that was set.
Excluded are only whole entries hit by `Clash`. -/
theorem C41_metadata_partial (C : Codec) (sink sink' : Sink) (zw : ZipWriter) (h : Created sink zw) (hs : sink.bytes = [])
    (ops : List Op) (evs : List Ev) (hc : (runArchive C zw ops evs).2.1 = .ok sink')
    (hleg : Legible ops (runArchive C zw ops evs).1 (runArchive C zw ops evs).2.2.isZip64 sink'.bytes) :
    ∃ ls offs, Program C ops (runArchive C zw ops evs).1 ls ∧
      List.Forall₂ (fun l off => OccursAt sink'.bytes sigLocal off ∧
        OccursAt sink'.bytes l.entry.filename.basic (off + 30)) ls offs ∧
      (List.Forall₂ (fun l off => ¬ Clash off l) ls offs → ∀ b : Build, ls.length ≤ b.maxVecEntries →
        ∃ f : ZipFile, (∀ s : RState, s.data = sink'.bytes → Interrupted (openFile b s).1 ∨ (openFile b s).1 = .ok f) ∧
          List.Forall₂ (fun (q : Listing × Nat) e => ReadAs zw.forceNoZip64 q.2 q.1 e) (ls.zip offs) f.entries ∧
          f.zip64 = (runArchive C zw ops evs).2.2.isZip64 ∧ f.comment = ⟨.utf8, archiveComment ops, none⟩) := by
  obtain ⟨out, ps, offs, cd, z, fin⟩ := finished h hs hc (J := True) (Or.inl trivial)
  refine ⟨ps.map Prod.fst, offs, fin.program, ?_, fun hcl b hv => ?_⟩
  · rw [List.forall₂_map_left_iff]
    refine fin.placed.imp fun p off hp => ?_
    rw [fin.bytes]
    exact hp.header
  · rw [List.forall₂_map_left_iff] at hcl
    rw [List.length_map] at hv
    obtain ⟨f, h1, h2, h3, h4⟩ := fin.shown (b := b) h hleg hcl hv
    refine ⟨f, h1, ?_, h3, h4⟩
    have : (ps.map Prod.fst).zip offs = (ps.zip offs).map fun q => (q.1.1, q.2) := by
      rw [List.zip_map_left]; rfl
    rw [this, List.forall₂_map_left_iff]
    exact h2.imp fun _ _ h => h.readAs

/-- C41 without the exclusion: archives of less than 4 GiB. -/
theorem C41_small_partial (C : Codec) (sink sink' : Sink) (zw : ZipWriter) (h : Created sink zw) (hs : sink.bytes = [])
    (ops : List Op) (evs : List Ev) (hc : (runArchive C zw ops evs).2.1 = .ok sink')
    (hleg : Legible ops (runArchive C zw ops evs).1 (runArchive C zw ops evs).2.2.isZip64 sink'.bytes)
    (hsmall : sink'.bytes.length ≤ 0xFFFFFFFF) :
    ∃ ls offs, Program C ops (runArchive C zw ops evs).1 ls ∧
      List.Forall₂ (fun l off => OccursAt sink'.bytes sigLocal off ∧
        OccursAt sink'.bytes l.entry.filename.basic (off + 30)) ls offs ∧
      ∀ b : Build, ls.length ≤ b.maxVecEntries →
        ∃ f : ZipFile, (∀ s : RState, s.data = sink'.bytes → Interrupted (openFile b s).1 ∨ (openFile b s).1 = .ok f) ∧
          List.Forall₂ (fun (q : Listing × Nat) e => ReadAs zw.forceNoZip64 q.2 q.1 e) (ls.zip offs) f.entries ∧
          f.zip64 = (runArchive C zw ops evs).2.2.isZip64 ∧ f.comment = ⟨.utf8, archiveComment ops, none⟩ := by
  obtain ⟨ls, offs, h1, h2, h3⟩ := C41_metadata_partial C sink sink' zw h hs ops evs hc hleg
  refine ⟨ls, offs, h1, h2, h3 (h2.imp fun l off ho hcl => ?_)⟩
  have h4 := congrArg List.length ho.1
  rw [List.length_take, List.length_drop, show sigLocal.length = 4 from rfl] at h4
  have := hcl.2.1
  omega

/-! ## C42 -/

theorem forall₂_get {α β : Type} {R : α → β → Prop} {as : List α} {bs : List β} (h : List.Forall₂ R as bs) {i : Nat} {b : β}
    (hb : bs[i]? = some b) : ∃ a, as[i]? = some a ∧ R a b := by
  induction h generalizing i with
  | nil => cases hb
  | cons h _ ih =>
    cases i with
    | zero => cases hb; exact ⟨_, rfl, h⟩
    | succ i => exact ih hb

theorem forall₂_get' {α β : Type} {R : α → β → Prop} {as : List α} {bs : List β} (h : List.Forall₂ R as bs) {i : Nat} {a : α}
    (ha : as[i]? = some a) : ∃ b, bs[i]? = some b ∧ R a b := by
  induction h generalizing i with
  | nil => cases ha
  | cons h _ ih =>
    cases i with
    | zero => cases ha; exact ⟨_, rfl, h⟩
    | succ i => exact ih ha

theorem forall₂_mem {α β : Type} {R : α → β → Prop} {as : List α} {bs : List β} (h : List.Forall₂ R as bs) :
    List.Forall₂ (fun a b => a ∈ as ∧ R a b) as bs := by
  induction h with
  | nil => exact .nil
  | cons h _ ih =>
    exact .cons ⟨List.mem_cons_self, h⟩ (ih.imp fun _ _ h => ⟨List.mem_cons_of_mem _ h.1, h.2⟩)

/-- Archives of less than 4 GiB, and those without a size of exactly 0xFFFFFFFF, have no `Clash`. -/
theorem Finished.noClash {C : Codec} {zw : ZipWriter} {ops : List Op} {evs : List Ev} {bytes out cd : Bytes} {J : Prop}
    {ps : List (Listing × CdEntry)} {offs : List Nat} {z : Bool} (fin : Finished C zw ops evs bytes J out ps offs cd z)
    (hsmall : bytes.length ≤ 0xFFFFFFFF ∨
      ∀ ls, Program C ops (runArchive C zw ops evs).1 ls → ∀ l ∈ ls, l.us ≠ 0xFFFFFFFF ∧ l.cs ≠ 0xFFFFFFFF) :
    List.Forall₂ (fun p off => ¬ Clash off p.1) ps offs := (forall₂_mem fin.placed).imp fun p off hp hcl => by
  obtain ⟨hpm, hp⟩ := hp
  rcases hsmall with hsmall | hsmall
  case inr =>
    obtain ⟨h1, h2⟩ := hsmall _ fin.program p.1 (List.mem_map_of_mem hpm)
    rcases hcl.2.2.2.2 with h | h
    · exact h1 h
    · exact h2 h
  have := (hp.header (y := cd ++ endBytes z ps.length cd.length out.length (commentBytes (finalComment none ops)))).1
  have h4 := congrArg List.length this
  rw [← archiveBytes, ← fin.bytes, List.length_take, List.length_drop, show sigLocal.length = 4 from rfl] at h4
  have := hcl.2.1
  omega

/-- C42. In every such archive, opening the entry of a listed call (the one after those of the listed calls before it) and
reading it with the check gives the data of that call, for every lossless codec, in buffers of any size, however the source
answers. Precompressed data comes back as what it stands for, if the caller gave its checksum. With `force_no_zip64` this is
not claimed of streams of compressed or precompressed data; beyond 4 GiB, only if no entry has a size of exactly
0xFFFFFFFF. -/
theorem C42_content_partial (C : Codec) (hC : Lawful C) (sink sink' : Sink) (zw : ZipWriter) (h : Created sink zw)
    (hs : sink.bytes = []) (ops : List Op) (evs : List Ev) (hc : (runArchive C zw ops evs).2.1 = .ok sink')
    (hleg : Legible ops (runArchive C zw ops evs).1 (runArchive C zw ops evs).2.2.isZip64 sink'.bytes)
    (hsmall : sink'.bytes.length ≤ 0xFFFFFFFF ∨
      ∀ ls, Program C ops (runArchive C zw ops evs).1 ls → ∀ l ∈ ls, l.us ≠ 0xFFFFFFFF ∧ l.cs ≠ 0xFFFFFFFF)
    (b : Build) (hb : (runArchive C zw ops evs).1.countP isListed ≤ b.maxVecEntries) :
    ∃ f : ZipFile, (∀ s : RState, s.data = sink'.bytes → Interrupted (openFile b s).1 ∨ (openFile b s).1 = .ok f) ∧
      f.entries.length = (runArchive C zw ops evs).1.countP isListed ∧
      ∀ k op r d, ops[k]? = some op → (runArchive C zw ops evs).1[k]? = some r → isListed r = true → DataOf C op r d →
        (zw.forceNoZip64 = true → ¬ Exchanged op) → ∀ chunk, 0 < chunk → ∀ s : RState, s.data = sink'.bytes →
          Interrupted (checkedRead C f (((runArchive C zw ops evs).1.take k).countP isListed) chunk s).1 ∨
          (checkedRead C f (((runArchive C zw ops evs).1.take k).countP isListed) chunk s).1 = .ok d := by
  obtain ⟨out, ps, offs, cd, z, fin⟩ := finished h hs hc (J := True) (Or.inl trivial)
  have hcount := Program.count fin.program
  rw [List.length_map] at hcount
  obtain ⟨f, h1, h2, _, _⟩ := fin.shown (b := b) h hleg (fin.noClash hsmall) (by rw [hcount]; exact hb)
  refine ⟨f, h1, ?_, fun k op r d hop hr hl hd hx chunk hch s hsd => ?_⟩
  · rw [← h2.length_eq, List.length_zip, ← fin.placed.length_eq, Nat.min_self, hcount]
  · obtain ⟨l, hi, ha⟩ := Program.nth fin.program hop hr hl
    generalize ((runArchive C zw ops evs).1.take k).countP isListed = i at hi ⊢
    rw [List.getElem?_map] at hi
    cases hp : ps[i]? with
    | none => rw [hp] at hi; cases hi
    | some p =>
      rw [hp] at hi
      cases hi
      obtain ⟨off, ho, a, x, rest, hout, hal, g⟩ := forall₂_get' fin.placed hp
      obtain ⟨e, he, hsh⟩ := forall₂_get' h2 (i := i) (a := (p, off)) (by
        rw [List.getElem?_zip_eq_some]; exact ⟨hp, ho⟩)
      obtain ⟨g1, g3⟩ := DataOf.holds hC hd ha
      refine g.checked (a := a) (x := x) (rest := rest ++ (cd ++ endBytes z ps.length cd.length out.length
        (commentBytes (finalComment none ops)))) (fin.own hleg.own p (List.mem_of_getElem? hp)) ?_ hal hsh.readAs ?_ hleg.size
        he hch g3 g1.symm s hsd
      · rw [fin.bytes, archiveBytes, hout]
        simp only [List.append_assoc]
      · rw [Asked.recorded hx ha]

theorem checkedRead_completes (C : Codec) (f : ZipFile) (i chunk : Nat) : Completes (checkedRead C f i chunk) := by
  unfold checkedRead
  refine Completes.bind ?_ fun p => Completes.bind (Completes.bind (readToEnd_completes C chunk p.1) fun q => ?_) fun _ => Completes.pure
  · unfold readerWithEntry
    cases f.entries[i]? with
    | none => exact Completes.fail trivial
    | some e => exact Completes.bind (seekToDataOffset_completes e) fun _ => Completes.pure
  · exact Completes.ite Completes.pure (Completes.fail trivial)

/-- C42. The way out left open for interruptions is not taken by a source that keeps answering. -/
theorem C42_completes (C : Codec) (f : ZipFile) (i chunk : Nat) (data : Bytes) (pos c : Nat) (log : List RdEvent) :
    ∃ k, ¬ Interrupted (checkedRead C f i chunk ⟨data, pos, some (List.replicate k (.chunk c)), log⟩).1 := by
  obtain ⟨k, r, p, hr, h⟩ := checkedRead_completes C f i chunk c data pos
  obtain ⟨l, e⟩ := h 0 log
  exact ⟨k, by rw [Nat.add_zero] at e; rw [e]; exact hr⟩

/-- C41 on the sample program, which abandons one entry and fails on another: two entries are listed. -/
example (b : Build) (hb : 2 ≤ b.maxVecEntries) : ∃ f : ZipFile,
    (∀ s : RState, s.data = Samples.programBytes → Interrupted (openFile b s).1 ∨ (openFile b s).1 = .ok f) ∧
    f.entries.map (fun e => e.entry.filename.basic) = [[97, 46, 116], [98]] ∧ f.comment = ⟨.utf8, [99], none⟩ := by
  obtain ⟨ls, offs, h1, h2, h3⟩ := C41_small_partial Samples.markCodec ⟨[], 0, 0⟩ ⟨Samples.programBytes, 1, 0⟩ Samples.fresh .new rfl
    Samples.program Samples.eager Samples.program_archive.2.1 Samples.program_legible (by decide +kernel)
  have hn : ls.map (fun l => l.entry.filename.basic) = [[97, 46, 116], [98]] := by
    rw [Samples.program_archive.1] at h1
    unfold Samples.program Samples.programResults at h1
    cases h1 with
    | other h _ => exact absurd (Or.inl rfl) h
    | listed ha h1 =>
    cases h1 with
    | listed ha' h1 => cases ha'
    | other _ h1 =>
    cases h1 with
    | other h _ => exact absurd (Or.inl rfl) h
    | listed ha' h1 =>
    cases h1 with
    | listed ha'' h1 => cases ha''
    | other _ h1 =>
    cases h1 with
    | listed ha'' h1 => cases ha'' with | whole _ _ _ _ _ h _ => exact absurd h (by decide)
    | other _ h1 =>
    cases h1
    cases ha
    cases ha'
    rfl
  have hl := congrArg List.length hn
  rw [List.length_map] at hl
  obtain ⟨f, g1, g2, _, g4⟩ := h3 b (by rw [hl]; exact hb)
  refine ⟨f, g1, ?_, g4⟩
  rw [← hn]
  have hlen := h2.length_eq
  generalize f.entries = es at g2
  clear h1 h3 hn hl g1
  induction h2 generalizing es with
  | nil => cases g2; rfl
  | cons h hs ih =>
    cases g2 with
    | cons ha hr =>
      rw [List.map_cons, List.map_cons, ha.name, ih (Nat.succ.inj hlen) _ hr]

/-- C42 on the sample program: the stored and the compressed entry give back what was written. -/
example (b : Build) (hb : 2 ≤ b.maxVecEntries) : ∃ f : ZipFile,
    (∀ s : RState, s.data = Samples.programBytes → Interrupted (openFile b s).1 ∨ (openFile b s).1 = .ok f) ∧
    (∀ s : RState, s.data = Samples.programBytes →
      Interrupted (checkedRead Samples.markCodec f 0 7 s).1 ∨ (checkedRead Samples.markCodec f 0 7 s).1 = .ok [104, 105]) ∧
    (∀ s : RState, s.data = Samples.programBytes →
      Interrupted (checkedRead Samples.markCodec f 1 1 s).1 ∨ (checkedRead Samples.markCodec f 1 1 s).1 = .ok [7, 8, 9]) := by
  have hr := Samples.program_archive.1
  obtain ⟨f, h1, h2, h3⟩ := C42_content_partial Samples.markCodec Samples.markCodec_lawful ⟨[], 0, 0⟩ ⟨Samples.programBytes, 1, 0⟩
    Samples.fresh .new rfl Samples.program Samples.eager Samples.program_archive.2.1 Samples.program_legible
    (Or.inl (by decide +kernel)) b (by rw [hr]; exact hb)
  rw [hr] at h3
  exact ⟨f, h1, h3 0 _ _ _ rfl rfl rfl (.whole _ _ _ _) (fun h => by cases h) 7 (by decide),
    h3 2 _ _ _ rfl rfl rfl (.stream _ _ _ _ _ _ (Or.inr Samples.acts_ok)) (fun h => by cases h) 1 (by decide)⟩

end AsyncZip
