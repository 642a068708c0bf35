import Verif.Proofs.Ordinary
import Verif.Props.Comment
/-!
# C41, C42, C45: the round trip, in terms of what the caller passes in

The round-trip theorems ask that the archive be `Legible`. Here that is derived from conditions on the calls alone.
-/

namespace AsyncZip
open Spec Rd

theorem runOp_grows (C : Codec) (zw : ZipWriter) (op : Op) : (runOp C zw op).2.cdEntries.length ≤ zw.cdEntries.length + 1 := by
  cases runOp_step C zw op with
  | other _ _ he => rw [he]; exact Nat.le_succ _
  | listed l c x asked _ _ _ he _ _ _ => rw [he, List.length_append, List.length_singleton]; exact Nat.le_refl _

theorem runOp_few (C : Codec) (zw : ZipWriter) (op : Op) (hn : zw.cdEntries.length < 0xFFFF) : ¬ TooMany (runOp C zw op).1 := by
  have key : ∀ q : Res Unit, ((runOp C zw op).1 = .whole q ∨ ∃ rs, (runOp C zw op).1 = .stream (.ok ()) rs (some q)) →
      q ≠ .error (.err (.zip64Needed .tooManyFiles)) := fun q h1 h2 => by
    have := C38_reports_count C zw op q h1 (Or.inr h2)
    rw [if_neg (by omega), h2] at this
    cases this
  intro ht
  generalize hr : (runOp C zw op).1 = r at ht key
  cases op with
  | whole e d pre evs =>
    have : r = .whole (writeWhole C e d pre ⟨zw, evs⟩).1 := hr.symm
    subst this
    exact key _ (Or.inl rfl) ht
  | comment c =>
    have : r = .comment := hr.symm
    subst this
    exact ht
  | stream e pre evs acts fin =>
    unfold runOp at hr
    simp only at hr
    split at hr
    · subst hr; exact ht
    · cases fin with
      | abandon => subst hr; exact ht
      | close evs' => subst hr; exact key _ (Or.inr ⟨_, rfl⟩) ht

theorem runOps_few (C : Codec) (ops : List Op) : ∀ zw : ZipWriter, zw.cdEntries.length + ops.length ≤ 0xFFFF →
    ∀ r ∈ (runOps C zw ops).1, ¬ TooMany r := by
  induction ops with
  | nil => intro _ _ r hr; cases hr
  | cons op ops ih =>
    intro zw hn r hr
    rw [List.length_cons] at hn
    rcases List.mem_cons.1 hr with rfl | hr
    · exact runOp_few C zw op (by omega)
    · have := runOp_grows C zw op
      exact ih (runOp C zw op).2 (by omega) r hr

theorem Program.ordinary {C : Codec} {ops : List Op} {rs : List OpResult} {ls : List Listing} (h : Program C ops rs ls)
    (ho : ∀ op ∈ ops, Ordinary op) : ∀ l ∈ ls, OrdinaryEntry l.entry := by
  induction h with
  | nil => intro l hl; cases hl
  | @listed op r ops rs l ls ha _ ih =>
    intro l' hl
    rcases List.mem_cons.1 hl with rfl | hl
    · have := ho op List.mem_cons_self
      cases ha <;> exact this
    · exact ih (fun op h => ho op (List.mem_cons_of_mem _ h)) l' hl
  | other _ _ ih => exact ih fun op h => ho op (List.mem_cons_of_mem _ h)

theorem plain_basic {n : ZipString} (h : Plain n) : n.basic = n.raw := by
  obtain ⟨enc, raw, alt⟩ := n
  obtain ⟨h1, h2⟩ := h
  cases h1; cases h2
  rfl

theorem OrdinaryEntry.extras {e : ZipEntry} (h : OrdinaryEntry e) : withUnicode e e.extraFields = [] := by
  unfold withUnicode
  rw [if_pos, h.extra]
  unfold bothUtf8 ZipString.isUtf8WithoutAlternative
  rw [h.name.1, h.name.2, h.comment.1, h.comment.2]
  rfl

/-- If the archive is not ZIP64, nothing before its end record looks like a ZIP64 locator. -/
theorem Finished.quiet {C : Codec} {zw : ZipWriter} {ops : List Op} {evs : List Ev} {bytes out cd : Bytes} {J : Prop}
    {ps : List (Listing × CdEntry)} {offs : List Nat} {z : Bool} (fin : Finished C zw ops evs bytes J out ps offs cd z)
    (ho : ∀ op ∈ ops, Ordinary op) (hne : ps ≠ []) (hsize : out.length < 0x5000000) (hz : z = false) :
    ¬ HasLocator bytes (endAt out cd z) := by
  rintro ⟨h20, hloc⟩
  obtain ⟨c, hc, pre, extra, hx, hcd⟩ := fin.directory.last (by
    intro h
    exact hne (List.map_eq_nil_iff.1 h))
  obtain ⟨p, hp, rfl⟩ := List.mem_map.1 hc
  obtain ⟨i, hi⟩ := List.getElem?_of_mem hp
  obtain ⟨off, _, a, x, rest, hout, ha, good⟩ := forall₂_get' fin.placed hi
  have hoff : off ≤ out.length := by rw [hout, ← ha, List.length_append]; exact Nat.le_add_right _ _
  have hord := Program.ordinary fin.program ho p.1 (List.mem_map_of_mem hp)
  have hneeds : zw.forceNoZip64 = false → ¬ NeedsZip64 p.1 := fun hf hn => by
    rw [fin.needs hf ⟨p, hp, hn⟩] at hz
    cases hz
  have hd := good.describes
  have hcar : p.2.entry.extraFields = [] ∧ p.2.header.lhOffset = UInt32.ofNat off := by
    have hcar := hd.carries
    generalize p.2.entry.extraFields = fs at hcar
    cases hcar with
    | plain hs hu hc' ho' h1 h2 h3 => exact ⟨OrdinaryEntry.extras hord, h3⟩
    | big hs hb h1 h2 h3 =>
      have hrec : p.1.recorded zw.forceNoZip64 = (p.1.us, p.1.cs) := by
        unfold Listing.recorded
        rw [hs, Bool.and_false, if_neg (by decide)]
      rw [hrec] at hb
      cases hf : zw.forceNoZip64 with
      | false => exact absurd (Or.inr hb) (hneeds hf)
      | true =>
        obtain ⟨k1, k2, _⟩ := good.small hf
        rcases hb with hb | hb
        · exact absurd k1 (UInt64.not_le.2 hb)
        · exact absurd k2 (UInt64.not_le.2 hb)
    | far hs hu hc' ho' _ _ _ => omega
    | stream hf hs _ _ _ => exact absurd (Or.inl hs) (hneeds hf)
  rw [hcar.1] at hx
  cases hx
  rw [hd.filename, hd.comment] at hcd
  have hext := hd.extraLen
  rw [hcar.1] at hext
  have hlo : p.2.header.lhOffset.toNat < 0x5000000 := by
    rw [hcar.2, UInt32.toNat_ofNat', Nat.mod_eq_of_lt (by omega)]
    omega
  have hq := quiet_record hd.nameLen hext hd.commentLen hd.disk (by rw [hd.exter]; exact hord.external) hlo
    (by rw [plain_basic hord.name, plain_basic hord.comment]; exact hord.quiet) (out ++ pre)
  subst hz
  have hl : (out ++ pre ++ recordBytes p.2.header p.1.entry.filename.basic [] p.1.entry.comment.basic).length =
      endAt out cd false := by
    unfold endAt
    rw [if_neg (by decide), Nat.add_zero, hcd, List.append_assoc, List.length_append]
  refine hq (endAt out cd false - 20) (by omega) ?_
  rw [fin.bytes] at hloc
  unfold archiveBytes at hloc
  rw [← List.append_assoc] at hloc
  have : out ++ cd = out ++ pre ++ recordBytes p.2.header p.1.entry.filename.basic [] p.1.entry.comment.basic := by
    rw [hcd, List.append_assoc]
  rw [this] at hloc
  unfold OccursAt at hloc ⊢
  rw [List.drop_append_of_le_length (by omega), List.take_append_of_le_length (by
    rw [List.length_drop, hl]
    show 4 ≤ _
    omega)] at hloc
  exact hloc

/-- An archive of fewer than 1280 calls and 80 MiB, with ordinary entries, at least one of them listed, and a comment of less
than 19200 bytes without the end signature, says what it means. -/
theorem legible_ordinary {C : Codec} {sink sink' : Sink} {zw : ZipWriter} (h : Created sink zw)
    (hs : sink.bytes = []) {ops : List Op} {evs : List Ev} (hc : (runArchive C zw ops evs).2.1 = .ok sink')
    (hn : ops.length < 0x500) (hsize : sink'.bytes.length < 0x5000000)
    (hcom : (archiveComment ops).length < 0x4B00) (hsig : ∀ i, ¬ OccursAt (archiveComment ops) sigEnd i)
    (ho : ∀ op ∈ ops, Ordinary op) (hsome : (runArchive C zw ops evs).1.countP isListed ≠ 0) :
    Legible ops (runArchive C zw ops evs).1 (runArchive C zw ops evs).2.2.isZip64 sink'.bytes where
  own := fun op hop f hf => by
    have : userFields op = [] := by
      have := ho op hop
      cases op with
      | whole e d p evs => exact this.extra
      | stream e p evs acts fin => exact this.extra
      | comment c => rfl
    rw [this] at hf
    cases hf
  comment := by omega
  last := small_last h hs hc hn hsize hcom hsig
  locator := by
    obtain ⟨out, ps, offs, cd, z, fin⟩ := finished h hs hc (J := True) (Or.inl trivial)
    obtain ⟨h1, _⟩ := fin.commentAt (by omega)
    rw [h1, ← fin.zip]
    intro hloc
    cases hz : z with
    | true => rfl
    | false =>
      refine absurd hloc (fin.quiet ho (fun hp => hsome ?_) ?_ hz)
      · rw [← Program.count fin.program, hp]
        rfl
      · have hb := fin.bytes
        rw [commentBytes_eq] at hb
        have hl := archive_length out cd z ps.length (archiveComment ops)
        rw [← hb] at hl
        unfold endAt at hl
        omega
  count := by
    have := runOps_few C ops zw (by rw [(Created.facts h).2.1]; simp only [List.length_nil]; omega)
    exact this
  size := by omega

/-- C41 for ordinary archives, in terms of what the caller passes in: whatever failed, was cancelled or abandoned, the
opened archive lists exactly the listed calls, in order, as they were asked for. -/
theorem C41_ordinary_partial (C : Codec) (sink sink' : Sink) (zw : ZipWriter) (h : Created sink zw)
    (hs : sink.bytes = []) (ops : List Op) (evs : List Ev) (hc : (runArchive C zw ops evs).2.1 = .ok sink')
    (hn : ops.length < 0x500) (hsize : sink'.bytes.length < 0x5000000)
    (hcom : (archiveComment ops).length < 0x4B00) (hsig : ∀ i, ¬ OccursAt (archiveComment ops) sigEnd i)
    (ho : ∀ op ∈ ops, Ordinary op) (hsome : (runArchive C zw ops evs).1.countP isListed ≠ 0) (b : Build)
    (hb : ops.length ≤ b.maxVecEntries) :
    ∃ ls offs f, Program C ops (runArchive C zw ops evs).1 ls ∧
      (∀ s : RState, s.data = sink'.bytes → Interrupted (openFile b s).1 ∨ (openFile b s).1 = .ok f) ∧
      List.Forall₂ (fun (q : Listing × Nat) e => ReadAs zw.forceNoZip64 q.2 q.1 e) (ls.zip offs) f.entries ∧
      ls.length = offs.length ∧ f.comment = ⟨.utf8, archiveComment ops, none⟩ := by
  obtain ⟨ls, offs, h1, h2, h3⟩ := C41_small_partial C sink sink' zw h hs ops evs hc
    (legible_ordinary h hs hc hn hsize hcom hsig ho hsome) (by omega)
  obtain ⟨f, h4, h5, _, h6⟩ := h3 b (Nat.le_trans (Program.length_le h1) hb)
  exact ⟨ls, offs, f, h1, h4, h5, h2.length_eq, h6⟩

/-- C42 for ordinary archives, in terms of what the caller passes in. -/
theorem C42_ordinary_partial (C : Codec) (hC : Lawful C) (sink sink' : Sink) (zw : ZipWriter) (h : Created sink zw)
    (hs : sink.bytes = []) (ops : List Op) (evs : List Ev) (hc : (runArchive C zw ops evs).2.1 = .ok sink')
    (hn : ops.length < 0x500) (hsize : sink'.bytes.length < 0x5000000)
    (hcom : (archiveComment ops).length < 0x4B00) (hsig : ∀ i, ¬ OccursAt (archiveComment ops) sigEnd i)
    (ho : ∀ op ∈ ops, Ordinary op) (hsome : (runArchive C zw ops evs).1.countP isListed ≠ 0)
    (b : Build) (hb : ops.length ≤ b.maxVecEntries) :
    ∃ f : ZipFile, (∀ s : RState, s.data = sink'.bytes → Interrupted (openFile b s).1 ∨ (openFile b s).1 = .ok f) ∧
      f.entries.length = (runArchive C zw ops evs).1.countP isListed ∧
      ∀ k op r d, ops[k]? = some op → (runArchive C zw ops evs).1[k]? = some r → isListed r = true → DataOf C op r d →
        (zw.forceNoZip64 = true → ¬ Exchanged op) → ∀ chunk, 0 < chunk → ∀ s : RState, s.data = sink'.bytes →
          Interrupted (checkedRead C f (((runArchive C zw ops evs).1.take k).countP isListed) chunk s).1 ∨
          (checkedRead C f (((runArchive C zw ops evs).1.take k).countP isListed) chunk s).1 = .ok d :=
  C42_content_partial C hC sink sink' zw h hs ops evs hc (legible_ordinary h hs hc hn hsize hcom hsig ho hsome)
    (Or.inl (by omega)) b (by
      obtain ⟨out, ps, offs, cd, z, fin⟩ := finished h hs hc (J := True) (Or.inl trivial)
      rw [← Program.count fin.program]
      exact Nat.le_trans (Program.length_le fin.program) hb)

theorem short_quiet {b sig : Bytes} (h : b.length < sig.length) (i : Nat) : ¬ OccursAt b sig i := fun hi => by
  have := congrArg List.length hi
  rw [List.length_take, List.length_drop] at this
  omega

theorem ordinary_program : ∀ op ∈ Samples.program, Ordinary op := by
  have h1 : OrdinaryEntry Samples.storedEntry :=
    ⟨⟨rfl, rfl⟩, ⟨rfl, rfl⟩, rfl, short_quiet (by decide), by decide +kernel⟩
  have h2 : OrdinaryEntry Samples.deflatedEntry :=
    ⟨⟨rfl, rfl⟩, ⟨rfl, rfl⟩, rfl, short_quiet (by decide), by decide +kernel⟩
  intro op hop
  unfold Samples.program at hop
  simp only [List.mem_cons, List.not_mem_nil, or_false] at hop
  rcases hop with rfl | rfl | rfl | rfl | rfl
  exacts [h1, h1, h2, trivial, h1]

/-- The sample program is ordinary. -/
example (b : Build) (hb : 5 ≤ b.maxVecEntries) : ∃ f : ZipFile,
    (∀ s : RState, s.data = Samples.programBytes → Interrupted (openFile b s).1 ∨ (openFile b s).1 = .ok f) ∧
    f.entries.length = 2 := by
  have hr := Samples.program_archive.1
  obtain ⟨f, h1, h2, _⟩ := C42_ordinary_partial Samples.markCodec Samples.markCodec_lawful ⟨[], 0, 0⟩ ⟨Samples.programBytes, 1, 0⟩
    Samples.fresh .new rfl Samples.program Samples.eager Samples.program_archive.2.1 (by decide) (by decide +kernel) (by decide)
    (short_quiet (by decide)) ordinary_program (by rw [hr]; decide) b hb
  rw [hr] at h2
  exact ⟨f, h1, h2⟩

end AsyncZip
