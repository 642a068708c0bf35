import Verif.Proofs.LargeRead
import Verif.Props.Accepted
import Verif.Props.LargeCopies
import Verif.Props.Agree
import Verif.Props.CopyAll
/-!
# C101: entries copied from one archive into another are read back
-/

namespace AsyncZip
open Spec Rd

/-- C101. Software that goes by the ZIP specification and nothing else reads every archive of whose entries each either brings no
ZIP64 field along, or brings one in the form in which this crate writes it and reads it back, as an entry does that was read from
an archive and is written into another: it gets every listed entry, in order, with its name, comment, method, date, checksum,
sizes, attributes and stored bytes, and the library supports all of them.
Partial: large entries written in one go together with a ZIP64 field, and small ones beyond 4 GiB, are recorded wrongly
(`C100_stale`, `C100_lost`); `Clash`, the end records and `force_no_zip64` as in C83. -/
theorem C101_repacked_partial (C : Codec) (sink sink' : Sink) (zw : ZipWriter) (h : Created sink zw) (hs : sink.bytes = [])
    (ops : List Op) (evs : List Ev) (hc : (runArchive C zw ops evs).2.1 = .ok sink')
    (hleg : Closing ops (runArchive C zw ops evs).1 (runArchive C zw ops evs).2.2.isZip64 sink'.bytes)
    (hlong : (runArchive C zw ops evs).2.2.isZip64 = false → sink'.bytes.length ≤ 0xFFFFFFFF) :
    ∃ ls offs, Program C ops (runArchive C zw ops evs).1 ls ∧
      List.Forall₂ (fun l off => OccursAt sink'.bytes sigLocal off ∧
        (l.streamed = false → off + l.stored.length ≤ sink'.bytes.length)) ls offs ∧
      (List.Forall₂ (fun l off => Repackable zw.forceNoZip64 l off) ls offs →
        ∃ is, independent sink'.bytes = some (is, archiveComment ops) ∧
          List.Forall₂ (fun l i => Shows l i ∧ Supported i) ls is) := by
  obtain ⟨out, ps, offs, cd, z, fin⟩ := finished h hs hc (J := True) (Or.inl trivial)
  have hb := fin.bytes
  rw [commentBytes_eq] at hb
  refine ⟨ps.map Prod.fst, offs, fin.program, ?_, fun hsd => ?_⟩
  · rw [List.forall₂_map_left_iff]
    refine fin.placed.imp fun p off hp => ⟨?_, fun hst => ?_⟩
    · rw [fin.bytes]
      exact hp.header.1
    · obtain ⟨a, x, rest, ho, ha, g⟩ := hp
      have h1 := (g.span hst).1
      have h2 := congrArg List.length ho
      have h3 := archive_length out cd z ps.length (archiveComment ops)
      have hea : endAt out cd z = out.length + cd.length + if z = true then 76 else 0 := rfl
      rw [← hb] at h3
      simp only [List.length_append] at h2
      omega
  rw [List.forall₂_map_left_iff] at hsd
  have hdd := archive_drop_cd out cd z ps.length (archiveComment ops)
  rw [← hb] at hdd
  obtain ⟨d1, d2, d3, d4, d5, d6, d7, d8, d9, d10⟩ := fin.declares_of h hleg fun hz => by
    have := hlong (by rw [← fin.zip]; exact hz)
    have hl := congrArg List.length hdd
    rw [List.length_drop, List.length_append] at hl
    omega
  obtain ⟨is, i1, i2⟩ := Directory.items_of (Q := fun l i => Shows l i ∧ Supported i) (force := zw.forceNoZip64)
    (y := cd ++ endBytes z ps.length cd.length out.length (archiveComment ops)) hb fin.directory hdd
    (forall₂_both fin.placed hsd fun p hp off h1 h2 => ⟨h1, fun x a rest rest' extra j g hd ha hx hj =>
      g.itemRepack h2 hd ha hx hj hleg.size⟩)
  refine ⟨is, ?_, i2⟩
  unfold independent
  rw [lastEndBelow_of hleg.last d10]
  simp only
  rw [if_pos ⟨d1, d2, d3.trans d4.symm, by rw [d5, d6, d7], d8⟩, d4, d5, d6, i1, d9]
  rfl

theorem StandsFor.contains {C : Codec} {m : Compression} {i : Item} {d : Bytes} (h : StandsFor C m i.stored d)
    (hm : (m, i.method) ∈ methodTable) : Contains C i d := by
  rcases h with ⟨rfl, h⟩ | ⟨hn, h⟩
  · refine Or.inl ⟨?_, h⟩
    simpa [methodTable] using hm
  · have := h []
    rw [List.append_nil] at this
    exact Or.inr ⟨m, _, hm, hn, this⟩

/-- C101. Entries read from archives, each with its ZIP64 field as the library shows it, and new entries besides, written into an
archive of less than 4 GiB with data of less than 4 GiB each: the library opens it, whatever the executor does, shows the same
names, comments, methods, dates and attributes, and reading with the check gives the data of the call.
Partial as above: `C100_large_fails` and `C100_far_fails` for larger ones, and streams with `force_no_zip64`. -/
theorem C101_restored_partial (b : Build) (C : Codec) (hC : Lawful C) (sink sink' : Sink) (zw : ZipWriter) (h : Created sink zw)
    (hs : sink.bytes = []) (ops : List Op) (evs : List Ev) (hc : (runArchive C zw ops evs).2.1 = .ok sink')
    (hleg : Closing ops (runArchive C zw ops evs).1 (runArchive C zw ops evs).2.2.isZip64 sink'.bytes)
    (hfull : ∀ op ∈ ops, ∀ f ∈ userFields op, FullField f) (hlen : sink'.bytes.length < 0xFFFFFFFF)
    (hus : ∀ ls, Program C ops (runArchive C zw ops evs).1 ls → ∀ l ∈ ls, l.us.toNat < 0xFFFFFFFF ∧
      (zw.forceNoZip64 = true → l.streamed = false))
    (hb : (runArchive C zw ops evs).1.countP isListed ≤ b.maxVecEntries) :
    ∃ (ls : List Listing) (is : List Item) (f : ZipFile), Program C ops (runArchive C zw ops evs).1 ls ∧
      independent sink'.bytes = some (is, archiveComment ops) ∧
      (∀ s : RState, s.data = sink'.bytes → Interrupted (openFile b s).1 ∨ (openFile b s).1 = .ok f) ∧
      f.comment.asBytes = archiveComment ops ∧ List.Forall₂ Shows ls is ∧ List.Forall₂ Matches is f.entries ∧
      ∀ k op r d, ops[k]? = some op → (runArchive C zw ops evs).1[k]? = some r → isListed r = true → DataOf C op r d →
        ∀ chunk, 0 < chunk → ∀ s : RState, s.data = sink'.bytes →
          Interrupted (checkedRead C f (((runArchive C zw ops evs).1.take k).countP isListed) chunk s).1 ∨
            (checkedRead C f (((runArchive C zw ops evs).1.take k).countP isListed) chunk s).1 = .ok d := by
  obtain ⟨ls, offs, h1, h2, h3⟩ := C101_repacked_partial C sink sink' zw h hs ops evs hc hleg fun _ => by omega
  obtain ⟨is, i1, i2⟩ := h3 ((forall₂_mem h2).imp fun l off hl => by
    obtain ⟨hm, ho, hst⟩ := hl
    obtain ⟨hu, hf⟩ := hus ls h1 l hm
    refine Or.inr ⟨?_, ?_⟩
    · obtain ⟨op, hop, hfs⟩ := Program.fields h1 l hm
      rw [hfs]
      exact hfull op hop
    · cases hs' : l.streamed with
      | true =>
        left
        refine ⟨?_, hs'⟩
        cases hz : zw.forceNoZip64 with
        | false => rfl
        | true =>
          rw [hf hz] at hs'
          cases hs'
      | false =>
        right
        have := hst hs'
        refine ⟨hs', hu, ?_, by omega⟩
        rw [Listing.cs, UInt64.toNat_ofNat', Nat.mod_eq_of_lt (by omega)]
        omega)
  have hsh : List.Forall₂ Shows ls is := i2.imp fun _ _ h => h.1
  have hsup : ∀ i ∈ is, Supported i := by
    intro i hi
    obtain ⟨n, hn⟩ := List.mem_iff_getElem?.1 hi
    obtain ⟨l, _, hl⟩ := forall₂_get' i2.flip hn
    exact hl.2
  have hcount : is.length = (runArchive C zw ops evs).1.countP isListed := by
    rw [← hsh.length_eq, Program.count h1]
  obtain ⟨f, f1, f2, f3, f4⟩ := C84_accepted b sink'.bytes is _ i1 hleg.size hsup (by rw [hcount]; exact hb)
  refine ⟨ls, is, f, h1, i1, f1, f2, hsh, f3, fun k op r d hop hr hl hd chunk hch s hsd => ?_⟩
  obtain ⟨l, hi, ha⟩ := Program.nth h1 hop hr hl
  obtain ⟨i, hi', hshow⟩ := forall₂_get' hsh hi
  obtain ⟨g1, g3⟩ := DataOf.holds hC hd ha
  have g3 : StandsFor C l.entry.compression i.stored d := by
    rw [hshow.stored]
    exact g3
  exact (f4 C _ chunk i d hch hi' s hsd).imp id fun hq =>
    hq.2 ⟨StandsFor.contains (m := l.entry.compression) g3 hshow.method, by rw [hshow.crc, g1]⟩

theorem Program.asked {C : Codec} {ops : List Op} {rs : List OpResult} {ls : List Listing} (h : Program C ops rs ls) :
    ∀ l ∈ ls, ∃ op ∈ ops, ∃ r ∈ rs, Asked C op r l := by
  induction h with
  | nil => intro l hl; cases hl
  | listed ha _ ih =>
    intro l hl
    rcases List.mem_cons.1 hl with rfl | hl
    · exact ⟨_, List.mem_cons_self, _, List.mem_cons_self, ha⟩
    · obtain ⟨op, h1, r, h2, h3⟩ := ih l hl
      exact ⟨op, List.mem_cons_of_mem _ h1, r, List.mem_cons_of_mem _ h2, h3⟩
  | other _ _ ih =>
    intro l hl
    obtain ⟨op, h1, r, h2, h3⟩ := ih l hl
    exact ⟨op, List.mem_cons_of_mem _ h1, r, List.mem_cons_of_mem _ h2, h3⟩

theorem copyAll_whole (c : RString) : ∀ (xs : List StoredZipEntry) (ds : List (Bytes × List Ev)) (op : Op),
    op ∈ copyAll xs ds c → (∃ (i : Nat) (x : StoredZipEntry) (d : Bytes) (evs : List Ev), xs[i]? = some x ∧ ds[i]? = some (d, evs) ∧ op = .whole x.entry d false evs) ∨ op = .comment c
  | [], _, _, h => Or.inr (List.mem_singleton.1 (by simpa [copyAll] using h))
  | _ :: _, [], _, h => Or.inr (List.mem_singleton.1 (by simpa [copyAll] using h))
  | x :: xs, (d, evs) :: ds, op, h => by
    rw [copyAll] at h
    rcases List.mem_cons.1 h with rfl | h
    · exact Or.inl ⟨0, x, d, evs, rfl, rfl, rfl⟩
    · refine (copyAll_whole c xs ds op h).imp ?_ id
      rintro ⟨i, y, d', evs', h1, h2, h3⟩
      exact ⟨i + 1, y, d', evs', h1, h2, h3⟩

theorem shows_kept {l : Listing} {i : Item} {e : StoredZipEntry} (h : Shows l i) (h' : Matches i e) :
    Kept l.entry e.entry ∧ e.entry.crc32 = l.crc ∧ e.entry.uncompressedSize = l.us := by
  refine ⟨⟨h'.name.trans h.name, h'.comment.trans h.comment, method_unique h'.method h.method, ?_, ?_, ?_⟩, ?_, ?_⟩
  · have h1 := UInt16.toNat_inj.1 (h'.time.trans h.time)
    have h2 := UInt16.toNat_inj.1 (h'.date.trans h.date)
    cases hx : e.entry.lastModificationDate
    cases hy : l.entry.lastModificationDate
    rw [hx, hy] at h1 h2
    simp only at h1 h2
    rw [h1, h2]
  · exact UInt16.toNat_inj.1 (h'.internal.trans h.internal)
  · exact UInt32.toNat_inj.1 (h'.external.trans h.external)
  · exact UInt32.toNat_inj.1 (h'.crc.trans h.crc)
  · exact UInt64.toNat_inj.1 (h'.us.trans h.us)

/-- C101. A whole archive, whoever made it, of whose entries each has at most ZIP64 fields in the form in which this crate writes
them for streamed entries, is copied by reading every entry with the check and writing it in one go: the library opens the copy,
shows entries that say the same, and reads the same data. What C67 says for archives without ZIP64 fields.
Partial as above; and copies of such copies are covered only if the copy's fields are again of that form, which they are not if
the entry was streamed before (`C48_twice_fails`). -/
theorem C101_copied_partial (C : Codec) (hC : Lawful C) (f₀ : ZipFile) (sink sink' : Sink) (zw : ZipWriter) (h : Created sink zw)
    (hs : sink.bytes = []) (ds : List (Bytes × List Ev)) (c : RString) (hcm : c.bytes = f₀.comment.raw)
    (hcom : c.bytes.length ≤ 65535) (hlen : f₀.entries.length = ds.length)
    (hread : ∀ i x d evs, f₀.entries[i]? = some x → ds[i]? = some (d, evs) →
      (∀ f ∈ x.entry.extraFields, FullField f) ∧ d.length < 0xFFFFFFFF ∧
      ∃ chunk s₁, 0 < chunk ∧ (checkedRead C f₀ i chunk s₁).1 = .ok d)
    (evs : List Ev) (hc : (runArchive C zw (copyAll f₀.entries ds c) evs).2.1 = .ok sink')
    (hfine : ∀ r ∈ (runArchive C zw (copyAll f₀.entries ds c) evs).1, Fine r ∧ ¬ TooMany r)
    (hlast : LastEnd sink'.bytes (endPosition sink'.bytes c.bytes))
    (hloc : HasLocator sink'.bytes (endPosition sink'.bytes c.bytes) →
      (runArchive C zw (copyAll f₀.entries ds c) evs).2.2.isZip64 = true)
    (hsmall : sink'.bytes.length < 0xFFFFFFFF) (b : Build) (hb : f₀.entries.length ≤ b.maxVecEntries) :
    ∃ f : ZipFile, (∀ s : RState, s.data = sink'.bytes → Interrupted (openFile b s).1 ∨ (openFile b s).1 = .ok f) ∧
      f.comment.asBytes = f₀.comment.raw ∧
      List.Forall₂ (fun x y : StoredZipEntry => Kept x.entry y.entry ∧ y.entry.crc32 = x.entry.crc32) f₀.entries f.entries ∧
      ∀ i d evs₁, ds[i]? = some (d, evs₁) → (∃ y, f.entries[i]? = some y ∧ y.entry.uncompressedSize.toNat = d.length) ∧
        ∀ chunk, 0 < chunk → ∀ s : RState, s.data = sink'.bytes →
          Interrupted (checkedRead C f i chunk s).1 ∨ (checkedRead C f i chunk s).1 = .ok d := by
  have hac : archiveComment (copyAll f₀.entries ds c) = c.bytes := by rw [archiveComment, copyAll_comment]
  have hrs : (runArchive C zw (copyAll f₀.entries ds c) evs).1 = (runOps C zw (copyAll f₀.entries ds c)).1 := rfl
  obtain ⟨r1, r2⟩ := copyAll_results C c f₀.entries ds zw hlen fun r hr => (hfine r (hrs ▸ hr)).1
  rw [← hrs] at r1 r2
  have hent : ∀ i x, f₀.entries[i]? = some x → ∃ d evs₁, ds[i]? = some (d, evs₁) := fun i x hx => by
    have : i < ds.length := hlen ▸ (List.getElem?_eq_some_iff.1 hx).1
    exact ⟨_, _, List.getElem?_eq_getElem this⟩
  obtain ⟨ls, is, f, g1, _, g3, g4, g5, g6, g7⟩ := C101_restored_partial b C hC sink sink' zw h hs (copyAll f₀.entries ds c) evs hc
    ⟨hac ▸ hcom, hac ▸ hlast, hac ▸ hloc, fun r hr => (hfine r hr).2, by omega⟩ (fun op ho f hf => by
      rcases copyAll_whole c _ _ op ho with ⟨i, x, d, evs₁, h1, h2, rfl⟩ | rfl
      · exact (hread i x d evs₁ h1 h2).1 f hf
      · cases hf) hsmall (fun ls hp l hl => by
      obtain ⟨op, h1, r, _, ha⟩ := Program.asked hp l hl
      rcases copyAll_whole c _ _ op h1 with ⟨i, x, d, evs₁, h3, h4, rfl⟩ | rfl
      · have := (hread i x d evs₁ h3 h4).2.1
        cases ha
        refine ⟨?_, fun _ => rfl⟩
        show (UInt64.ofNat d.length).toNat < 0xFFFFFFFF
        rw [UInt64.toNat_ofNat']
        omega
      · cases ha) (r1 ▸ hb)
  have hall : ∀ i x d evs₁, f₀.entries[i]? = some x → ds[i]? = some (d, evs₁) → ∃ y : StoredZipEntry, f.entries[i]? = some y ∧
      (Kept x.entry y.entry ∧ y.entry.crc32 = x.entry.crc32) ∧ y.entry.uncompressedSize.toNat = d.length ∧
      ∀ chunk, 0 < chunk → ∀ s : RState, s.data = sink'.bytes →
        Interrupted (checkedRead C f i chunk s).1 ∨ (checkedRead C f i chunk s).1 = .ok d := fun i x d evs₁ hx hd => by
    obtain ⟨_, q2, chunk, s₁, q3, q4⟩ := hread i x d evs₁ hx hd
    obtain ⟨r3, r, r4, r5⟩ := r2 i (List.getElem?_eq_some_iff.1 hx).1
    have hop := copyAll_get c _ _ i x d evs₁ hx hd
    have hil : isListed (.whole r) = true := decide_eq_true r5
    obtain ⟨l, hl, ha⟩ := Program.nth g1 hop r4 hil
    have hdata := g7 i _ _ d hop r4 hil (.whole _ _ _ _)
    rw [r3] at hl hdata
    obtain ⟨it, hit, hsh⟩ := forall₂_get' g5 hl
    obtain ⟨y, hy, hm⟩ := forall₂_get' g6 hit
    obtain ⟨k1, k2, k3⟩ := shows_kept hsh hm
    cases ha
    refine ⟨y, hy, ⟨k1, k2.trans (checkedRead_crc q3 hx q4)⟩, ?_, hdata⟩
    rw [k3]
    show (UInt64.ofNat d.length).toNat = d.length
    rw [UInt64.toNat_ofNat']
    omega
  refine ⟨f, g3, by rw [g4, ← hcm, hac], ?_, fun i d evs₁ hd => ?_⟩
  · refine List.forall₂_iff_get.2 ⟨by rw [← g6.length_eq, ← g5.length_eq, Program.count g1, r1], fun i hi hi' => ?_⟩
    obtain ⟨d, evs₁, hd⟩ := hent i _ (List.getElem?_eq_getElem hi)
    obtain ⟨y, hy, k1, _⟩ := hall i _ d evs₁ (List.getElem?_eq_getElem hi) hd
    rw [List.getElem?_eq_getElem hi'] at hy
    cases hy
    exact k1
  · have hi : i < f₀.entries.length := hlen ▸ (List.getElem?_eq_some_iff.1 hd).1
    obtain ⟨y, hy, _, k1, k2⟩ := hall i _ d evs₁ (List.getElem?_eq_getElem hi) hd
    exact ⟨⟨y, hy, k1⟩, k2⟩

/-- C101. The entries of archives of up to 4 GiB that this library wrote, whether in one go or as streams, have the form that
`C101_copied_partial` asks for when they are read. Partial: `Legible` as in C41; beyond 4 GiB the ZIP64 fields of small entries
have only an offset, and if such an entry is written to the front of an archive nothing is known about the copy. -/
theorem C101_origin_partial (C : Codec) (sink sink' : Sink) (zw : ZipWriter) (h : Created sink zw) (hs : sink.bytes = [])
    (ops : List Op) (evs : List Ev) (hc : (runArchive C zw ops evs).2.1 = .ok sink')
    (hleg : Legible ops (runArchive C zw ops evs).1 (runArchive C zw ops evs).2.2.isZip64 sink'.bytes)
    (hsmall : sink'.bytes.length ≤ 0xFFFFFFFF) (b : Build)
    (hb : (runArchive C zw ops evs).1.countP isListed ≤ b.maxVecEntries) :
    ∃ f : ZipFile, (∀ s : RState, s.data = sink'.bytes → Interrupted (openFile b s).1 ∨ (openFile b s).1 = .ok f) ∧
      f.entries.length = (runArchive C zw ops evs).1.countP isListed ∧
      ∀ x ∈ f.entries, ∀ g ∈ x.entry.extraFields, FullField g := by
  obtain ⟨out, ps, offs, cd, z, fin⟩ := finished h hs hc (J := True) (Or.inl trivial)
  have hcl : List.Forall₂ (fun l off => ¬ Clash off l) (ps.map Prod.fst) offs := by
    rw [List.forall₂_map_left_iff]
    exact fin.noClash (Or.inl hsmall)
  have hcount := Program.count fin.program
  rw [List.length_map] at hcount
  obtain ⟨f, f1, f2⟩ := fin.entries_shown h hleg hcl (b := b) (hcount ▸ hb)
    (P := fun _ e => ∀ g ∈ e.entry.extraFields, FullField g) fun p off e hp hat hsh g hg => by
      rw [hsh.extra] at hg
      have hown := fin.own hleg.own p hp
      obtain ⟨a, x, rest, hout, ha, gd⟩ := hat
      have hoff : off ≤ 0xFFFFFFFF := by
        have h1 := congrArg List.length hout
        have h2 := archive_length out cd z ps.length (archiveComment ops)
        have hbb := fin.bytes
        rw [commentBytes_eq] at hbb
        rw [← hbb] at h2
        have hea : endAt out cd z = out.length + cd.length + if z = true then 76 else 0 := rfl
        simp only [List.length_append] at h1
        omega
      exact gd.describes.carries.full (fun f hf => OwnField.wf (hown f hf) _ _) gd.fits hoff g (mem_trim hg)
  refine ⟨f, f1, ?_, fun x hx => ?_⟩
  · rw [← f2.length_eq, List.length_zip, List.length_map, ← fin.placed.length_eq, Nat.min_self, hcount]
  · obtain ⟨n, hn⟩ := List.mem_iff_getElem?.1 hx
    obtain ⟨_, _, h'⟩ := forall₂_get' f2.flip hn
    exact h'

/-! ## Concrete cases -/

namespace Samples

/-- An entry that was streamed to an archive and read from it (`firstRead`, with a ZIP64 field) is copied as it is, and streamed
with new data. -/
def copies : List Op :=
  [.whole firstRead.entry [1, 7, 1, 8, 1, 9, 0] true eager,
   .stream firstRead.entry false eager [.write [5, 6] eager] (.close eager)]

def copiesBytes : Bytes :=
  [80, 75, 3, 4, 20, 0, 0, 8, 8, 0, 0, 0, 0, 0, 59, 253, 11, 75, 7, 0, 0, 0, 3, 0, 0, 0, 1, 0, 28, 0, 98, 1, 0, 24, 0,
   3, 0, 0, 0, 0, 0, 0, 0, 7, 0, 0, 0, 0, 0, 0, 0, 0, 0, 0, 0, 0, 0, 0, 0, 1, 7, 1, 8, 1, 9, 0, 80, 75, 3, 4, 20, 0, 8,
   8, 8, 0, 0, 0, 0, 0, 59, 253, 11, 75, 255, 255, 255, 255, 255, 255, 255, 255, 1, 0, 48, 0, 98, 1, 0, 24, 0, 3, 0, 0,
   0, 0, 0, 0, 0, 7, 0, 0, 0, 0, 0, 0, 0, 0, 0, 0, 0, 0, 0, 0, 0, 1, 0, 16, 0, 3, 0, 0, 0, 0, 0, 0, 0, 7, 0, 0, 0, 0, 0,
   0, 0, 1, 5, 1, 6, 0, 80, 75, 7, 8, 143, 67, 205, 213, 255, 255, 255, 255, 255, 255, 255, 255, 80, 75, 1, 2, 63, 3,
   20, 0, 0, 8, 8, 0, 0, 0, 0, 0, 59, 253, 11, 75, 7, 0, 0, 0, 3, 0, 0, 0, 1, 0, 28, 0, 0, 0, 0, 0, 0, 0, 0, 0, 164, 1,
   0, 0, 0, 0, 98, 1, 0, 24, 0, 3, 0, 0, 0, 0, 0, 0, 0, 7, 0, 0, 0, 0, 0, 0, 0, 0, 0, 0, 0, 0, 0, 0, 0, 80, 75, 1, 2,
   63, 3, 20, 0, 8, 8, 8, 0, 0, 0, 0, 0, 143, 67, 205, 213, 255, 255, 255, 255, 255, 255, 255, 255, 1, 0, 48, 0, 0, 0,
   0, 0, 0, 0, 0, 0, 164, 1, 255, 255, 255, 255, 98, 1, 0, 24, 0, 2, 0, 0, 0, 0, 0, 0, 0, 5, 0, 0, 0, 0, 0, 0, 0, 66, 0,
   0, 0, 0, 0, 0, 0, 1, 0, 16, 0, 3, 0, 0, 0, 0, 0, 0, 0, 7, 0, 0, 0, 0, 0, 0, 0, 80, 75, 6, 6, 44, 0, 0, 0, 0, 0, 0, 0,
   63, 3, 46, 0, 0, 0, 0, 0, 0, 0, 0, 0, 2, 0, 0, 0, 0, 0, 0, 0, 2, 0, 0, 0, 0, 0, 0, 0, 170, 0, 0, 0, 0, 0, 0, 0, 166,
   0, 0, 0, 0, 0, 0, 0, 80, 75, 6, 7, 0, 0, 0, 0, 80, 1, 0, 0, 0, 0, 0, 0, 1, 0, 0, 0, 80, 75, 5, 6, 0, 0, 0, 0, 2, 0,
   2, 0, 170, 0, 0, 0, 166, 0, 0, 0, 0, 0]

theorem copies_runs : (runArchive markCodec fresh copies eager).1 = [.whole (.ok ()), .stream (.ok ()) [.ok 2] (some (.ok ()))] ∧
    (runArchive markCodec fresh copies eager).2.1 = .ok ⟨copiesBytes, 0, 0⟩ ∧
    (runArchive markCodec fresh copies eager).2.2.isZip64 = true := by
  decide +kernel

theorem copies_closing : Closing copies (runArchive markCodec fresh copies eager).1
    (runArchive markCodec fresh copies eager).2.2.isZip64 copiesBytes := by
  rw [copies_runs.1, copies_runs.2.2]
  exact ⟨by decide, lastEnd_of_decide (by unfold OccursAt; decide +kernel), fun _ => rfl, by decide, by decide +kernel⟩

theorem copies_full : ∀ op ∈ copies, ∀ f ∈ userFields op, FullField f := by
  intro op ho f hf
  simp only [copies, List.mem_cons, List.not_mem_nil, or_false] at ho
  have : f = .zip64 ⟨1, some 3, some 7, some 0, none⟩ := by
    rcases ho with rfl | rfl <;> exact List.mem_singleton.1 hf
  rw [this]
  simp [FullField, WellFormed]

theorem copies_small : ∀ ls, Program markCodec copies (runArchive markCodec fresh copies eager).1 ls → ∀ l ∈ ls,
    l.us.toNat < 0xFFFFFFFF ∧ (fresh.forceNoZip64 = true → l.streamed = false) := by
  intro ls hp l hl
  rw [copies_runs.1] at hp
  refine ⟨?_, fun h => by cases h⟩
  cases hp with
  | other h _ => exact absurd (Or.inl rfl) h
  | listed h1 hp =>
    cases hp with
    | other h _ => exact absurd (Or.inl rfl) h
    | listed h2 hp =>
      cases hp
      cases h1
      cases h2
      simp only [List.mem_cons, List.not_mem_nil, or_false] at hl
      rcases hl with rfl | rfl
      · decide +kernel
      · show (UInt64.ofNat (accepted [.write [5, 6] eager] [.ok 2]).length).toNat < 0xFFFFFFFF
        decide +kernel

end Samples

example := C101_repacked_partial Samples.markCodec ⟨[], 0, 0⟩ ⟨Samples.copiesBytes, 0, 0⟩ Samples.fresh .new rfl Samples.copies
  Samples.eager Samples.copies_runs.2.1 Samples.copies_closing (fun _ => by decide +kernel)

example (b : Build) (hb : 2 ≤ b.maxVecEntries) := C101_restored_partial b Samples.markCodec Samples.markCodec_lawful ⟨[], 0, 0⟩
  ⟨Samples.copiesBytes, 0, 0⟩ Samples.fresh .new rfl Samples.copies Samples.eager Samples.copies_runs.2.1 Samples.copies_closing
  Samples.copies_full (by decide +kernel) Samples.copies_small (by rw [Samples.copies_runs.1]; exact hb)

/-- The archive with one streamed entry, copied: the first copy of `C48_twice_fails`, which is right. -/
theorem Samples.second_archive :
    (runArchive Samples.markCodec Samples.fresh (copyAll [Samples.firstRead] [([7, 8, 9], Samples.eager)] ⟨[], by decide⟩)
      Samples.eager).1 = [.whole (.ok ()), .comment] ∧
    (runArchive Samples.markCodec Samples.fresh (copyAll [Samples.firstRead] [([7, 8, 9], Samples.eager)] ⟨[], by decide⟩)
      Samples.eager).2.1 = .ok ⟨Samples.secondBytes, 0, 0⟩ := by decide +kernel

example (b : Build) (hb : 1 ≤ b.maxVecEntries) : ∃ f : ZipFile,
    (∀ s : RState, s.data = Samples.secondBytes → Interrupted (openFile b s).1 ∨ (openFile b s).1 = .ok f) ∧
    ∀ s : RState, s.data = Samples.secondBytes → Interrupted (checkedRead Samples.markCodec f 0 9 s).1 ∨
      (checkedRead Samples.markCodec f 0 9 s).1 = .ok [7, 8, 9] := by
  obtain ⟨f, h1, _, _, h3⟩ := C101_copied_partial Samples.markCodec Samples.markCodec_lawful (Samples.single Samples.firstRead true)
    ⟨[], 0, 0⟩ ⟨Samples.secondBytes, 0, 0⟩ Samples.fresh .new rfl [([7, 8, 9], Samples.eager)] ⟨[], by decide⟩ rfl (by decide) rfl (by
      intro i x d evs hx hd
      match i, hx, hd with
      | 0, hx, hd =>
        cases hx; cases hd
        exact ⟨Samples.copies_full _ List.mem_cons_self, by decide, 5, Samples.prompt Samples.streamedBytes, by decide, by decide +kernel⟩
      | _ + 1, hx, hd => cases hd)
    Samples.eager Samples.second_archive.2 (by
      intro r hr
      have hr : r ∈ [OpResult.whole (.ok ()), .comment] := Samples.second_archive.1 ▸ hr
      simp only [List.mem_cons, List.not_mem_nil, or_false] at hr
      rcases hr with rfl | rfl
      · exact ⟨Or.inl rfl, fun h => (by cases h)⟩
      · exact ⟨trivial, id⟩)
    (lastEnd_of_decide (by decide +kernel)) (fun h => absurd h (by decide +kernel)) (by decide +kernel) b hb
  exact ⟨f, h1, fun s hs => (h3 0 _ _ rfl).2 9 (by decide) s hs⟩

example (b : Build) (hb : 1 ≤ b.maxVecEntries) := C101_origin_partial Samples.markCodec ⟨[], 0, 0⟩ ⟨Samples.streamedBytes, 0, 0⟩
  Samples.fresh .new rfl Samples.streamOne Samples.eager (by decide +kernel) Samples.streamed_legible (by decide +kernel) b
  (Nat.le_trans (by decide +kernel) hb)

/-- The data of the two calls, going by C101. -/
example : DataOf Samples.markCodec (.whole Samples.firstRead.entry [1, 7, 1, 8, 1, 9, 0] true Samples.eager) (.whole (.ok ())) [7, 8, 9] ∧
    DataOf Samples.markCodec (.stream Samples.firstRead.entry false Samples.eager [.write [5, 6] Samples.eager] (.close Samples.eager))
      (.stream (.ok ()) [.ok 2] (some (.ok ()))) [5, 6] :=
  ⟨.wholePre _ _ _ _ _ Samples.ready_stands (by decide +kernel),
    .stream _ _ _ [.write [5, 6] Samples.eager] [.ok 2] _ (Or.inr fun r hr => ⟨2, List.mem_singleton.1 hr⟩)⟩

end AsyncZip
