import Verif.Proofs.ReadBack
import Verif.Proofs.WriteErrors
import Verif.Proofs.WriteSame
import Verif.Proofs.WriteCount
import Verif.Proofs.Access
/-!
# From a finished program to the archive the reader sees
-/

namespace AsyncZip
open Spec Rd

/-- The entry's local record starts at `off` of `out`. -/
def At (force : Bool) (out : Bytes) (p : Listing × CdEntry) (off : Nat) : Prop :=
  ∃ a x rest, out = a ++ (x ++ rest) ∧ a.length = off ∧ Good force off x p.1 p.2

theorem At.mono {force : Bool} {out : Bytes} {p : Listing × CdEntry} {off : Nat} (h : At force out p off) (y : Bytes) :
    At force (out ++ y) p off := by
  obtain ⟨a, x, rest, h1, h2⟩ := h
  exact ⟨a, x, rest ++ y, by rw [h1]; simp only [List.append_assoc], h2⟩

/-- The local records follow one another from `pos` to `stop`, without gaps if there is no junk. -/
inductive Laid (J : Prop) (force : Bool) (out : Bytes) : Nat → List (Listing × CdEntry) → List Nat → Nat → Prop where
  | nil {pos stop : Nat} (h : pos ≤ stop) (t : ¬ J → pos = stop) : Laid J force out pos [] [] stop
  | cons {pos off stop : Nat} {p : Listing × CdEntry} {ps : List (Listing × CdEntry)} {offs : List Nat} {a x rest : Bytes}
      (h : pos ≤ off) (t : ¬ J → pos = off) (hout : out = a ++ (x ++ rest)) (ha : a.length = off)
      (g : Good force off x p.1 p.2) (hs : Laid J force out (off + x.length) ps offs stop) :
      Laid J force out pos (p :: ps) (off :: offs) stop

theorem Laid.junk {J : Prop} {force : Bool} {out : Bytes} {pos stop : Nat} {ps : List (Listing × CdEntry)} {offs : List Nat}
    (h : Laid J force out pos ps offs stop) (hJ : J) (y : Bytes) : Laid J force (out ++ y) pos ps offs (stop + y.length) := by
  induction h with
  | nil h t => exact .nil (Nat.le_trans h (Nat.le_add_right _ _)) (fun n => absurd hJ n)
  | @cons _ _ _ _ _ _ a x rest h t hout ha g _ ih =>
    exact .cons h t (rest := rest ++ y) (by rw [hout]; simp only [List.append_assoc]) ha g ih

theorem Laid.snoc {J : Prop} {force : Bool} {out : Bytes} {pos : Nat} {ps : List (Listing × CdEntry)} {offs : List Nat}
    {stop : Nat} (h : Laid J force out pos ps offs stop) (hs : stop = out.length) {x : Bytes} {p : Listing × CdEntry}
    (g : Good force out.length x p.1 p.2) :
    Laid J force (out ++ x) pos (ps ++ [p]) (offs ++ [out.length]) (out ++ x).length := by
  induction h with
  | nil h t =>
    exact .cons (hs ▸ h) (fun n => hs ▸ t n) (a := out) (x := x) (rest := []) (by rw [List.append_nil]) rfl g
      (.nil (Nat.le_of_eq List.length_append.symm) fun _ => by rw [List.length_append])
  | @cons _ _ _ _ _ _ _ _ rest h t hout ha g' _ ih =>
    exact .cons h t (rest := rest ++ x) (by rw [hout]; simp only [List.append_assoc]) ha g' (ih hs)

theorem Laid.placed {J : Prop} {force : Bool} {out : Bytes} {pos stop : Nat} {ps : List (Listing × CdEntry)}
    {offs : List Nat} (h : Laid J force out pos ps offs stop) : List.Forall₂ (At force out) ps offs := by
  induction h with
  | nil h t => exact .nil
  | cons h t hout ha g _ ih => exact .cons ⟨_, _, _, hout, ha, g⟩ ih

theorem Body.laid {J : Prop} {force : Bool} {out : Bytes} {ps : List (Listing × CdEntry)} (h : Body J force out ps) :
    ∃ offs, Laid J force out 0 ps offs out.length := by
  induction h with
  | nil => exact ⟨[], .nil (Nat.le_refl _) fun _ => rfl⟩
  | @snoc out ps x l c _ g ih =>
    obtain ⟨offs, ih⟩ := ih
    exact ⟨_, ih.snoc rfl g⟩
  | junk j hJ _ ih =>
    obtain ⟨offs, ih⟩ := ih
    exact ⟨offs, by rw [List.length_append]; exact ih.junk hJ j⟩

/-- What a successfully closed archive consists of. -/
structure Finished (C : Codec) (zw : ZipWriter) (ops : List Op) (evs : List Ev) (bytes : Bytes) (J : Prop) (out : Bytes)
    (ps : List (Listing × CdEntry)) (offs : List Nat) (cd : Bytes) (z : Bool) : Prop where
  body : Body J zw.forceNoZip64 out ps
  laid : Laid J zw.forceNoZip64 out 0 ps offs out.length
  program : Program C ops (runArchive C zw ops evs).1 (ps.map Prod.fst)
  directory : Directory (ps.map Prod.snd) cd
  bytes : bytes = archiveBytes out cd z ps.length (commentBytes (finalComment none ops))
  far : out.length > 0xFFFFFFFF → z = true
  zip : z = (runArchive C zw ops evs).2.2.isZip64
  count : zw.forceNoZip64 = false → ps.length > 0xFFFF → z = true
  needs : zw.forceNoZip64 = false → (∃ p ∈ ps, NeedsZip64 p.1) → z = true
  entries : (runOps C zw ops).2.cdEntries = ps.map Prod.snd
  sink : (runOps C zw ops).2.writer.sink.bytes = out
  offset : (runOps C zw ops).2.writer.offset = out.length
  flag : z = ((runOps C zw ops).2.isZip64 || decide (out.length > 0xFFFFFFFF))
  only : (∀ r ∈ (runArchive C zw ops evs).1, Fine r) → z = true → zw.isZip64 = true ∨
    zw.forceNoZip64 = false ∧ ((∃ p ∈ ps, NeedsZip64 p.1) ∨ 0xFFFF < ps.length) ∨ 0xFFFFFFFF < out.length

theorem finished {C : Codec} {sink sink' : Sink} {zw : ZipWriter} (h : Created sink zw) (hs : sink.bytes = [])
    {ops : List Op} {evs : List Ev} (hc : (runArchive C zw ops evs).2.1 = .ok sink') {J : Prop}
    (hJ : J ∨ ∀ r ∈ (runArchive C zw ops evs).1, Fine r) :
    ∃ out ps offs cd z, Finished C zw ops evs sink'.bytes J out ps offs cd z := by
  have hclose : (closeArchive ⟨(runOps C zw ops).2, evs⟩).1 = .ok sink' := hc
  obtain ⟨hw, he, hcm⟩ := Created.facts h
  obtain ⟨out, ps, hst, hsb, hprog, honly⟩ := runOps_state C J ops zw [] [] (State.new _ _ (by rw [hw]) he) hJ
  rw [List.nil_append, List.nil_append] at hst
  rw [hw, hs, List.nil_append] at hsb
  obtain ⟨cd, z, hdir, hoff, hzz, hb, _, hz⟩ := closeArchive_ok (s' := (closeArchive ⟨(runOps C zw ops).2, evs⟩).2)
    (Prod.ext hclose rfl)
  have hforce : (runOps C zw ops).2.forceNoZip64 = zw.forceNoZip64 := (runOps_ext C ops zw).force
  have hbody := hst.body
  rw [hforce] at hbody
  obtain ⟨offs, hoffs⟩ := hbody.laid
  have hzip : zw.forceNoZip64 = false → (∃ p ∈ ps, NeedsZip64 p.1) ∨ 0xFFFF < ps.length → z = true := fun hf hn => by
    rw [hzz, hst.zip (hforce.trans hf) hn]; rfl
  refine ⟨out, ps, offs, cd, z, hbody, hoffs, hprog, ?_, ?_, ?_, ?_, fun hf hn => hzip hf (Or.inr hn),
    fun hf hn => hzip hf (Or.inl hn), hst.entries, hsb, hst.offset, by rw [← hst.offset]; exact hzz, ?_⟩
  · rw [← hst.entries]; exact hdir
  · have hcom := runOps_comment C ops zw
    rw [hcm] at hcom
    rw [hb, hsb, hst.entries, List.length_map, hst.offset, hcom]
    rfl
  · intro hf
    rw [hzz, hst.offset, decide_eq_true hf, Bool.or_true]
  · exact hz.symm
  · intro hfine hz1
    rw [hzz, Bool.or_eq_true, decide_eq_true_eq, hst.offset] at hz1
    rcases hz1 with hz1 | hz1
    · rw [hst.offset, List.nil_append] at honly
      rcases honly hfine hz1 with h0 | ⟨hf, h1 | h1 | h1⟩
      · exact Or.inl h0
      · exact Or.inr (Or.inl ⟨hf, Or.inl h1⟩)
      · exact Or.inr (Or.inr h1)
      · exact Or.inr (Or.inl ⟨hf, Or.inr h1⟩)
    · exact Or.inr (Or.inr hz1)

theorem Finished.placed {C : Codec} {zw : ZipWriter} {ops : List Op} {evs : List Ev} {bytes out cd : Bytes} {J : Prop}
    {ps : List (Listing × CdEntry)} {offs : List Nat} {z : Bool} (h : Finished C zw ops evs bytes J out ps offs cd z) :
    List.Forall₂ (At zw.forceNoZip64 out) ps offs := h.laid.placed

/-- Opening the finished archive lists its entries. -/
theorem Finished.opens {b : Build} {C : Codec} {zw : ZipWriter} {ops : List Op} {evs : List Ev} {bytes out cd : Bytes} {J : Prop}
    {ps : List (Listing × CdEntry)} {offs : List Nat} {z : Bool} (h : Finished C zw ops evs bytes J out ps offs cd z)
    (hown : ∀ p ∈ ps, ∀ f ∈ p.1.entry.extraFields, OwnField f)
    (hclash : List.Forall₂ (fun p off => ¬ Clash off p.1) ps offs)
    (hlast : LastEnd bytes (bytes.length - (22 + (commentBytes (finalComment none ops)).length)))
    (hcom : (commentBytes (finalComment none ops)).length ≤ 65535)
    (hloc : HasLocator bytes (bytes.length - (22 + (commentBytes (finalComment none ops)).length)) → z = true)
    (hcount : zw.forceNoZip64 = true → z = false → ps.length ≤ 0xFFFF) (hlen : bytes.length < 2 ^ 64)
    (hv : ps.length ≤ b.maxVecEntries) :
    ∃ es, (∀ pos, ∃ pos', Runs (openFile b) bytes pos
        (.ok { entries := es, zip64 := z, comment := ZipString.new (commentBytes (finalComment none ops)) .utf8 }) pos') ∧
      List.Forall₂ (fun (q : (Listing × CdEntry) × Nat) e => Reads b q.1.2 e ∧ ReadAs zw.forceNoZip64 q.2 q.1.1 e ∧
        e.entry.filename = nameRead q.1.1.entry ∧ e.entry.comment = commentRead q.1.1.entry ∧
        e.entry.extraFields = trim q.1.2.entry.extraFields ∧
        e.headerSize = 30 + q.1.1.entry.filename.basic.length + extraCountBytes q.1.2.entry.extraFields) (ps.zip offs) es := by
  have hbytes := h.bytes
  have hlen' := hlen
  rw [hbytes, archive_length] at hlen'
  have hpos : bytes.length - (22 + (commentBytes (finalComment none ops)).length) = endAt out cd z := by
    rw [hbytes, archive_length]; omega
  have hout : out.length < 2 ^ 64 := by unfold endAt at hlen'; omega
  have hes : ∃ es, List.Forall₂ (fun (q : (Listing × CdEntry) × Nat) e => Reads b q.1.2 e ∧ ReadAs zw.forceNoZip64 q.2 q.1.1 e ∧
        e.entry.filename = nameRead q.1.1.entry ∧ e.entry.comment = commentRead q.1.1.entry ∧
        e.entry.extraFields = trim q.1.2.entry.extraFields ∧
        e.headerSize = 30 + q.1.1.entry.filename.basic.length + extraCountBytes q.1.2.entry.extraFields) (ps.zip offs) es := by
    have hpl := h.placed
    clear h hcount hv hbytes hlen' hpos hlast hloc
    induction hpl with
    | nil => exact ⟨[], .nil⟩
    | @cons p off ps offs hat _ ih =>
      obtain ⟨a, x, rest, ho, hl, g⟩ := hat
      cases hclash with
      | cons hc1 hc2 =>
        obtain ⟨es, hes⟩ := ih (fun q hq => hown q (List.mem_cons_of_mem _ hq)) hc2
        have : off < 2 ^ 64 := by
          rw [ho, List.length_append, hl] at hout; omega
        obtain ⟨e, he⟩ := Good.reads (b := b) g (hown p List.mem_cons_self) this hc1
        exact ⟨e :: es, .cons he hes⟩
  obtain ⟨es, hes⟩ := hes
  refine ⟨es, fun pos => ?_, hes⟩
  have hreads : List.Forall₂ (Reads b) (ps.map Prod.snd) es := by
    have hl := h.placed.length_eq
    clear h hcount hv hbytes hlen' hpos hlast hloc hclash hown
    induction ps generalizing offs es with
    | nil => cases hes; exact .nil
    | cons p ps ih =>
      cases offs with
      | nil => cases hl
      | cons off offs =>
        cases hes with
        | cons h1 h2 => exact .cons h1.1 (ih _ h2 (Nat.succ.inj hl))
  have hcs : (ps.map Prod.snd).length = ps.length := List.length_map _
  rw [hbytes, ← hcs]
  rw [hpos, hbytes, ← hcs] at hlast hloc
  rw [hbytes, ← hcs] at hlen
  rw [← hcs] at hv hcount
  refine reopen h.directory hreads hlast hcom (fun hz => ⟨fun hl => ?_, ?_, ?_⟩) hlen hv pos
  · have := hloc hl
    rw [hz] at this; cases this
  · cases hf : zw.forceNoZip64 with
    | true => exact hcount hf hz
    | false =>
      refine Nat.le_of_not_lt fun hn => ?_
      have := h.count hf (by rw [← hcs]; exact hn)
      rw [hz] at this; cases this
  · refine Nat.le_of_not_lt fun hn => ?_
    have := h.far hn
    rw [hz] at this; cases this

theorem commentBytes_eq (ops : List Op) : commentBytes (finalComment none ops) = archiveComment ops := by
  unfold commentBytes archiveComment
  cases finalComment none ops <;> rfl

/-! ## Data -/

theorem all_succeeded {rs : List (Res Nat)} (h : rs.all succeeded = true) : AllOk rs := by
  intro r hr
  have := List.all_eq_true.1 h r hr
  cases r with
  | ok k => exact ⟨k, rfl⟩
  | error e => cases this

theorem StoredAs.holds {C : Codec} (hC : Lawful C) {m : Compression} {lv : Level} {d stored : Bytes} {l : Listing}
    (h : StoredAs C m lv d stored) (hm : l.entry.compression = m) (hs : l.stored = stored) : Holds C l d := by
  rcases h with ⟨h1, h2⟩ | ⟨h1, h2, o, s, h3, h4⟩
  · exact Or.inl ⟨hm.trans h1, hs.trans h2⟩
  · refine Or.inr ⟨hm ▸ h1, fun rest => ?_⟩
    rw [hm, hs, h4]
    exact hC m lv h1 h2 _ _ _ h3 rest

theorem isListed_iff (r : OpResult) : isListed r = true ↔ ¬ NotListed r := by
  cases r with
  | whole r => simp [isListed, NotListed]
  | stream o rs fin =>
    cases fin with
    | none => simp [isListed, NotListed]
    | some r => simp [isListed, NotListed]
  | comment => simp [isListed, NotListed]

theorem Asked.listed {C : Codec} {op : Op} {r : OpResult} {l : Listing} (h : Asked C op r l) : isListed r = true := by
  cases h <;> exact decide_eq_true ‹Listed _›

/-- The listings are those of the listed calls, in order. -/
theorem Program.count {C : Codec} {ops : List Op} {rs : List OpResult} {ls : List Listing} (h : Program C ops rs ls) :
    ls.length = rs.countP isListed := by
  induction h with
  | nil => rfl
  | listed ha _ ih => rw [List.countP_cons_of_pos (Asked.listed ha), List.length_cons, ih]
  | other hn _ ih => rw [List.countP_cons_of_neg (by rw [isListed_iff]; exact fun h => h hn), ih]

theorem Program.nth {C : Codec} {ops : List Op} {rs : List OpResult} {ls : List Listing} (h : Program C ops rs ls) :
    ∀ {k : Nat} {op : Op} {r : OpResult}, ops[k]? = some op → rs[k]? = some r → isListed r = true →
      ∃ l, ls[(rs.take k).countP isListed]? = some l ∧ Asked C op r l := by
  induction h with
  | nil => intro k op r h1; cases h1
  | @listed op r ops rs l ls ha _ ih =>
    intro k op' r' h1 h2 h3
    cases k with
    | zero => cases h1; cases h2; exact ⟨l, rfl, ha⟩
    | succ k =>
      obtain ⟨l', h4, h5⟩ := ih h1 h2 h3
      refine ⟨l', ?_, h5⟩
      rw [List.take_succ_cons, List.countP_cons_of_pos (Asked.listed ha)]
      exact h4
  | other hn _ ih =>
    intro k op' r' h1 h2 h3
    cases k with
    | zero => cases h2; exact absurd hn ((isListed_iff _).1 h3)
    | succ k =>
      obtain ⟨l', h4, h5⟩ := ih h1 h2 h3
      refine ⟨l', ?_, h5⟩
      rw [List.take_succ_cons, List.countP_cons_of_neg (by rw [isListed_iff]; exact fun h => h hn)]
      exact h4

/-- What is known of the data of a listed call. -/
theorem DataOf.holds {C : Codec} (hC : Lawful C) {op : Op} {r : OpResult} {l : Listing} {d : Bytes} (hd : DataOf C op r d)
    (ha : Asked C op r l) : l.crc = crc32 d ∧ Holds C l d := by
  cases hd with
  | whole e d evs r =>
    cases ha with
    | whole _ _ _ _ stored hl hst => exact ⟨rfl, StoredAs.holds hC hst rfl rfl⟩
  | wholePre e x d evs r h hc =>
    cases ha
    exact ⟨hc, h⟩
  | stream e evs evs' acts rs r hok =>
    cases ha with
    | stream _ _ _ _ _ _ fed stored hl hst hfed =>
      rw [hfed hok] at hst
      exact ⟨rfl, StoredAs.holds hC hst rfl rfl⟩
  | streamPre e evs evs' acts rs r d h hc =>
    cases ha
    exact ⟨hc, h⟩

theorem Program.data {C : Codec} (hC : Lawful C) {ops : List Op} {rs : List OpResult} {ls : List Listing} {ds : List Bytes}
    (h : Program C ops rs ls) (hd : DataIn C ops rs ds) : List.Forall₂ (fun l d => l.crc = crc32 d ∧ Holds C l d) ls ds := by
  induction h generalizing ds with
  | nil => cases hd; exact .nil
  | listed ha hs ih =>
    cases hd with
    | listed hl hd hds => exact .cons (DataOf.holds hC hd ha) (ih hds)
    | other hn hds =>
      rw [Asked.listed ha] at hn
      cases hn
  | other hn hs ih =>
    cases hd with
    | listed hl hd hds => exact absurd hn ((isListed_iff _).1 hl)
    | other _ hds => exact ih hds

theorem DataIn.count {C : Codec} {ops : List Op} {rs : List OpResult} {ds : List Bytes} (h : DataIn C ops rs ds) :
    ds.length = rs.countP isListed := by
  induction h with
  | nil => rfl
  | listed hl _ _ ih => rw [List.countP_cons_of_pos hl, List.length_cons, ih]
  | other hn _ ih => rw [List.countP_cons_of_neg (by rw [hn]; exact Bool.false_ne_true), ih]

theorem DataIn.nth {C : Codec} {ops : List Op} {rs : List OpResult} {ds : List Bytes} (h : DataIn C ops rs ds) :
    ∀ {i : Nat} {d : Bytes}, ds[i]? = some d → ∃ k op r, ops[k]? = some op ∧ rs[k]? = some r ∧ isListed r = true ∧
      DataOf C op r d ∧ (rs.take k).countP isListed = i := by
  induction h with
  | nil => intro i d h; cases h
  | listed hl hd _ ih =>
    intro i d' hi
    cases i with
    | zero =>
      cases hi
      exact ⟨0, _, _, rfl, rfl, hl, hd, rfl⟩
    | succ i =>
      obtain ⟨k, op, r, h1, h2, h3, h4, h5⟩ := ih hi
      refine ⟨k + 1, op, r, h1, h2, h3, h4, ?_⟩
      rw [List.take_succ_cons, List.countP_cons_of_pos hl, h5]
  | other hn _ ih =>
    intro i d' hi
    obtain ⟨k, op, r, h1, h2, h3, h4, h5⟩ := ih hi
    refine ⟨k + 1, op, r, h1, h2, h3, h4, ?_⟩
    rw [List.take_succ_cons, List.countP_cons_of_neg (by rw [hn]; exact Bool.false_ne_true), h5]

/-- Nothing is exchanged in the record. -/
theorem Asked.recorded {C : Codec} {force : Bool} {op : Op} {r : OpResult} {l : Listing}
    (hno : force = true → ¬ Exchanged op) (ha : Asked C op r l) : l.recorded force = (l.us, l.cs) := by
  unfold Listing.recorded
  split
  · rename_i hfs
    rw [Bool.and_eq_true] at hfs
    have hx := hno hfs.1
    cases ha with
    | whole e d evs r stored _ _ => cases hfs.2
    | wholePre e d evs r _ => cases hfs.2
    | stream e evs evs' acts srs r fed stored _ hsa hfed =>
      have hm : e.compression = .stored := Classical.byContradiction fun hm => hx (Or.inl hm)
      rcases hsa with ⟨_, h2⟩ | ⟨h1, _⟩
      · rw [Listing.cs]
        simp only [h2, hfed (Or.inl hm)]
      · exact absurd hm h1
    | streamPre e evs evs' acts srs r _ => exact absurd (Or.inr rfl) hx
  · rfl

theorem local_disk {force : Bool} {l : Listing} {c : CdEntry} {h : LocalFileHeader} {fs : List ExtraField}
    (hl : LocalHeader force l c h fs) (hno : NoZip64 l.entry.extraFields) : diskFields fs = 0 := by
  have plain : diskFields (withUnicode l.entry l.entry.extraFields) = 0 :=
    diskFields_zero fun z hz => absurd rfl (noZip64_withUnicode hno _ hz z)
  have zip : ∀ (a b : UInt64) o, diskFields (withUnicode l.entry (l.entry.extraFields ++ [zip64Of (some a) (some b) o])) = 0 :=
    fun a b o => diskFields_zero fun z hz => (zip64_members hno (by simp [zip64Of, EmptyContent]) z hz).1
  cases hs : l.streamed with
  | false =>
    obtain ⟨_, h1⟩ := hl.whole hs
    rcases h1 with ⟨_, _, _, _, h1⟩ | ⟨o, _, _, _, _, h1⟩
    · rw [h1]; exact plain
    · rw [h1]; exact zip _ _ _
  | true =>
    obtain ⟨_, _, h1⟩ := hl.stream hs
    rw [h1]
    cases force with
    | true => exact plain
    | false => exact zip _ _ _

/-- Seeking to the data of a recorded entry. -/
theorem Good.seek {force : Bool} {off : Nat} {x a rest : Bytes} {l : Listing} {c : CdEntry} {e : StoredZipEntry} {data : Bytes}
    (g : Good force off x l c) (hown : ∀ f ∈ l.entry.extraFields, OwnField f) (hd : data = a ++ (x ++ rest))
    (ha : a.length = off) (he : e.fileOffset = off) (pos : Nat) :
    ∃ start, Runs (seekToDataOffset e) data pos (.ok ()) start ∧ data.drop start = l.stored ++ (tailBytes force l ++ rest) ∧
      start = dataStart data off := by
  obtain ⟨h, fs, extra, hl, hx, hbytes⟩ := g.bytes
  have hlen := extraAsBytes_length hx
  rw [local_disk hl (own_noZip64 hown)] at hlen
  have h0 : data.drop off = le32 LFH_SIGNATURE ++ (h.asSlice ++ (l.entry.filename.basic ++ (extra ++ (l.stored ++
      (tailBytes force l ++ rest))))) := by
    rw [hd, List.drop_append_of_le_length (Nat.le_of_eq ha.symm), ← ha, List.drop_length, List.nil_append, hbytes, localBytes]
    simp only [List.append_assoc]
  have h1 := drop_append_of_drop h0 (le32_length _)
  have h2 := drop_append_of_drop h1 (lfh_length h)
  have h3 := drop_append_of_drop h2 hl.nameLen.symm
  have h4 := drop_append_of_drop (n := h.extraFieldLength.toNat) h3 (by rw [hl.extraLen]; omega)
  have hrun : Runs (seekToDataOffset e) data pos (.ok ())
      (off + 4 + 26 + (h.fileNameLength.toNat + h.extraFieldLength.toNat)) := by
    unfold seekToDataOffset
    rw [he]
    refine Runs.bind Runs.seekStart (Runs.bind (Runs.exactAt h0 (le32_length _)) (Runs.ite_pos (fromLe32_le32 _) ?_))
    refine Runs.bind (Runs.bind (Runs.exactAt h1 (lfh_length h)) Runs.pure) ?_
    rw [lfh_ofBytes_asSlice]
    exact Runs.bind Runs.seekForward Runs.pure
  refine ⟨_, hrun, ?_, ?_⟩
  · rw [← h4]
    congr 1
    omega
  · obtain ⟨log', hr⟩ := hrun []
    obtain ⟨_, _, _, hp⟩ := seekToDataOffset_ok hr
    rw [he] at hp
    exact hp

/-- Opening a recorded entry. -/
theorem Good.reader {force : Bool} {off i : Nat} {x a rest : Bytes} {l : Listing} {c : CdEntry} {e : StoredZipEntry}
    {f : ZipFile} {data : Bytes} (g : Good force off x l c) (hown : ∀ f ∈ l.entry.extraFields, OwnField f)
    (hd : data = a ++ (x ++ rest)) (ha : a.length = off) (he : ReadAs force off l e) (hcs : (l.recorded force).2 = l.cs)
    (hlen : data.length < 2 ^ 64) (hf : f.entries[i]? = some e) (s : RState) (hs : s.data = data) :
    Interrupted (readerWithEntry f i s).1 ∨ ∃ s1, readerWithEntry f i s =
        (.ok (EntryReader.new l.entry.compression l.stored.length, e.entry), s1) ∧
      s1.data = data ∧ s1.data.drop s1.pos = l.stored ++ (tailBytes force l ++ rest) := by
  obtain ⟨start, hrun, hdrop, _⟩ := g.seek hown hd ha he.offset s.pos
  have hstored : e.entry.compressedSize.toNat = l.stored.length := by
    have h1 : l.stored.length < 2 ^ 64 := by
      have := congrArg List.length hdrop
      rw [List.length_drop, List.length_append] at this
      omega
    rw [he.cs, hcs, Listing.cs, UInt64.toNat_ofNat']
    omega
  unfold readerWithEntry
  rw [hf]
  simp only
  rcases hrun.of_chunkIndep (seekToDataOffset_chunkIndep e) s hs rfl with hi | ⟨h1, h2, h3⟩
  · left
    cases hr : seekToDataOffset e s with
    | mk r s1 =>
      rw [hr] at hi
      cases r with
      | ok u => exact absurd hi not_interrupted_ok
      | error y => rw [bind_of_error hr]; exact interrupted_cast hi
  · right
    refine ⟨(seekToDataOffset e s).2, ?_, h2, ?_⟩
    · rw [bind_of_ok (Prod.ext h1 rfl), hstored, he.method]
      rfl
    · rw [h2, h3, hdrop]

theorem Holds.entryData {C : Codec} {l : Listing} {d rest data : Bytes} {pos : Nat} (h : Holds C l d)
    (hd : data.drop pos = l.stored ++ rest) :
    Spec.entryData C l.entry.compression data pos l.stored.length = ⟨d, l.stored.length, true⟩ := by
  have hw : window data pos l.stored.length = l.stored := take_of_drop hd rfl
  unfold Spec.entryData
  rw [hw]
  rcases h with ⟨h1, h2⟩ | ⟨h1, h2⟩
  · rw [if_pos h1, h2]
  · rw [if_neg h1]
    have := h2 []
    rw [List.append_nil] at this
    exact this

theorem readToEndChecked_ok {C : Codec} {m : Compression} {size chunk k : Nat} {crc : UInt32} {d : Bytes} {s : RState}
    (hc : 0 < chunk) (hd : entryData C m s.data s.pos size = ⟨d, k, true⟩) (hcrc : crc32 d = crc) :
    Interrupted ((EntryReader.new m size).readToEndChecked C chunk crc s).1 ∨
      ∃ er' s', (EntryReader.new m size).readToEndChecked C chunk crc s = (.ok (d, er'), s') ∧ s'.data = s.data := by
  unfold EntryReader.readToEndChecked
  cases hr : (EntryReader.new m size).readToEnd C chunk s with
  | mk r s2 =>
    cases r with
    | ok x =>
      obtain ⟨b, er'⟩ := x
      obtain ⟨g1, g2, g3, g4, g5⟩ := readToEnd_ok hc hr
      rw [rest_new, hd] at g1
      simp only at g1
      subst g1
      right
      have hh : er'.computeHash.1 = crc := by
        rw [show er'.computeHash.1 = er'.hasher.finalize from rfl, g5, ← hcrc]
        rfl
      rw [bind_of_ok hr]
      simp only [if_pos hh]
      exact ⟨_, _, rfl, g4⟩
    | error e =>
      obtain ⟨_, g⟩ := readToEnd_err hr
      rw [bind_of_error hr]
      rcases g with g | ⟨_, g2⟩
      · exact Or.inl (interrupted_cast g)
      · rw [rest_new, hd] at g2; cases g2

/-- Reading a recorded entry with the check. -/
theorem Good.checked {C : Codec} {force : Bool} {off i chunk : Nat} {x a rest d : Bytes} {l : Listing} {c : CdEntry}
    {e : StoredZipEntry} {f : ZipFile} {data : Bytes} (g : Good force off x l c)
    (hown : ∀ f ∈ l.entry.extraFields, OwnField f) (hd : data = a ++ (x ++ rest)) (ha : a.length = off)
    (he : ReadAs force off l e) (hcs : (l.recorded force).2 = l.cs) (hlen : data.length < 2 ^ 64)
    (hf : f.entries[i]? = some e) (hc : 0 < chunk) (hh : Holds C l d) (hcrc : crc32 d = l.crc) (s : RState)
    (hs : s.data = data) : Interrupted (checkedRead C f i chunk s).1 ∨ (checkedRead C f i chunk s).1 = .ok d := by
  unfold checkedRead
  rcases g.reader hown hd ha he hcs hlen hf s hs with hi | ⟨s1, h1, h2, h3⟩
  · left
    cases hr : readerWithEntry f i s with
    | mk r s1 =>
      rw [hr] at hi
      cases r with
      | ok u => exact absurd hi not_interrupted_ok
      | error y => rw [bind_of_error hr]; exact interrupted_cast hi
  · rw [bind_of_ok h1]
    simp only
    rcases readToEndChecked_ok (crc := e.entry.crc32) hc (Holds.entryData hh h3) (hcrc.trans he.crc.symm) with hi | ⟨er', s', hr, _⟩
    · left
      cases hr : (EntryReader.new l.entry.compression l.stored.length).readToEndChecked C chunk e.entry.crc32 s1 with
      | mk r s1 =>
        rw [hr] at hi
        cases r with
        | ok u => exact absurd hi not_interrupted_ok
        | error y => rw [bind_of_error hr]; exact interrupted_cast hi
    · right
      rw [bind_of_ok hr]
      rfl

end AsyncZip
