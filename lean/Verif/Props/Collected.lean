import Verif.Props.Repacked
import Verif.Spec.Collected
/-!
# C103: archives of what was read elsewhere
-/

namespace AsyncZip
open Spec Rd

theorem streamNext_made {b : Build} {s s' : RState} {r : Reading} (h : streamNext b s = (.ok (some r), s')) : Made r.entry := by
  unfold streamNext at h
  rw [bind_ok_iff] at h
  obtain ⟨e, s1, h1, h2⟩ := h
  cases e with
  | none => cases h2
  | some e =>
    cases h2
    exact lfh_made h1

theorem visit_made {C : Codec} {b : Build} {v : Visit} {s s' : RState} {x : ZipEntry × Option Bytes}
    (h : visit C b v s = (.ok (some x), s')) : Made x.1 := by
  unfold visit at h
  rw [bind_ok_iff] at h
  obtain ⟨r, s1, h1, h2⟩ := h
  cases r with
  | none => cases h2
  | some r =>
    have hm := streamNext_made h1
    cases v with
    | skip =>
      simp only [bind_ok_iff] at h2
      obtain ⟨_, _, _, h2⟩ := h2
      cases h2
      exact hm
    | read chunk =>
      simp only [bind_ok_iff] at h2
      obtain ⟨_, _, _, _, _, _, h2⟩ := h2
      cases h2
      exact hm
    | check chunk =>
      simp only [bind_ok_iff] at h2
      obtain ⟨_, _, _, _, _, _, h2⟩ := h2
      cases h2
      exact hm
    | part n chunk =>
      simp only [bind_ok_iff] at h2
      obtain ⟨_, _, _, _, _, _, h2⟩ := h2
      cases h2
      exact hm

theorem visits_made {C : Codec} {b : Build} : ∀ (vs : List Visit) {s s' : RState} {xs : List (ZipEntry × Option Bytes)} {ended : Bool},
    visits C b vs s = (.ok (xs, ended), s') → ∀ x ∈ xs, Made x.1
  | [], s, s', xs, ended, h => by
    cases h
    exact fun _ h => (by cases h)
  | v :: vs, s, s', xs, ended, h => by
    unfold visits at h
    rw [bind_ok_iff] at h
    obtain ⟨x, s1, h1, h2⟩ := h
    cases x with
    | none =>
      cases h2
      exact fun _ h => (by cases h)
    | some x =>
      simp only [bind_ok_iff] at h2
      obtain ⟨⟨ys, en⟩, s2, h2, h3⟩ := h2
      cases h3
      intro y hy
      rcases List.mem_cons.1 hy with rfl | hy
      · exact visit_made h1
      · exact visits_made vs h2 y hy

theorem kept_made {C : Codec} {b : Build} {vs : List Visit} {s : RState} {xs : List (ZipEntry × Option Bytes)} {ended : Bool}
    (h : (visits C b vs s).1 = .ok (xs, ended)) : ∀ x ∈ kept xs, Made x.1 := by
  intro x hx
  obtain ⟨y, hy, hk⟩ := List.mem_filterMap.1 hx
  have := visits_made vs (Prod.ext h rfl : visits C b vs s = (.ok (xs, ended), (visits C b vs s).2)) y hy
  cases hd : y.2 with
  | none => rw [hd] at hk; cases hk
  | some d => rw [hd] at hk; cases hk; exact this

theorem collect_copyAll (c : RString) : ∀ (xs : List (ZipEntry × Bytes)) (es : List (List Ev)),
    collect xs es c = copyAll (xs.map fun x => ⟨x.1, 0, 0⟩) ((xs.map Prod.snd).zip es) c
  | [], _ => rfl
  | _ :: _, [] => rfl
  | (e, d) :: xs, evs :: es => by
    rw [collect, collect_copyAll c xs es]
    rfl

/-- C103. Of any stream, whoever made it, a client sees some entries with data, by any plan of skips, reads, partial reads and
checked reads, and writes those of which it has seen data to a new archive, each in one go: the library opens the archive and shows
exactly these entries, in order, with the names, methods and dates that the streaming reader showed, the checksum and size of the
data the client saw, and that data when read with the check. Nothing need be known about the stream.
Partial: entries with ZIP64 fields (see `C103_descriptors_partial`) or with unicode fields that contradict their name; beyond
4 GiB; the end records as in C41. -/
theorem C103_collected_partial (C : Codec) (hC : Lawful C) (b₀ : Build) (vs : List Visit) (s₀ : RState)
    (xs : List (ZipEntry × Option Bytes)) (ended : Bool) (h₀ : (visits C b₀ vs s₀).1 = .ok (xs, ended))
    (hcopy : ∀ x ∈ kept xs, Copyable x.1 ∧ x.2.length ≤ 0xFFFFFFFF)
    (sink sink' : Sink) (zw : ZipWriter) (h : Created sink zw) (hs : sink.bytes = []) (es : List (List Ev))
    (hes : es.length = (kept xs).length) (c : RString) (hcom : c.bytes.length ≤ 65535)
    (evs : List Ev) (hc : (runArchive C zw (collect (kept xs) es c) evs).2.1 = .ok sink')
    (hfine : ∀ r ∈ (runArchive C zw (collect (kept xs) es c) evs).1, Fine r ∧ ¬ TooMany r)
    (hlast : LastEnd sink'.bytes (endPosition sink'.bytes c.bytes))
    (hloc : HasLocator sink'.bytes (endPosition sink'.bytes c.bytes) →
      (runArchive C zw (collect (kept xs) es c) evs).2.2.isZip64 = true)
    (hsmall : sink'.bytes.length ≤ 0xFFFFFFFF) (b : Build) (hb : (kept xs).length ≤ b.maxVecEntries) :
    ∃ f : ZipFile, (∀ s : RState, s.data = sink'.bytes → Interrupted (openFile b s).1 ∨ (openFile b s).1 = .ok f) ∧
      f.comment.asStr = .ok c.bytes ∧
      List.Forall₂ (fun (x : ZipEntry × Bytes) (y : StoredZipEntry) => Copied x.1 y.entry ∧ y.entry.crc32 = crc32 x.2 ∧
        y.entry.uncompressedSize.toNat = x.2.length) (kept xs) f.entries ∧
      ∀ i x, (kept xs)[i]? = some x → ∀ chunk, 0 < chunk → ∀ s : RState, s.data = sink'.bytes →
        Interrupted (checkedRead C f i chunk s).1 ∨ (checkedRead C f i chunk s).1 = .ok x.2 := by
  have hm := kept_made h₀
  generalize kept xs = ks at *
  rw [collect_copyAll] at *
  have hlen : (ks.map fun x => (⟨x.1, 0, 0⟩ : StoredZipEntry)).length = ((ks.map Prod.snd).zip es).length := by
    rw [List.length_zip, List.length_map, List.length_map, hes, Nat.min_self]
  have hops : ∀ op ∈ copyAll (ks.map fun x => (⟨x.1, 0, 0⟩ : StoredZipEntry)) ((ks.map Prod.snd).zip es) c,
      (∀ f ∈ userFields op, OwnField f) ∨ ∃ y : ZipEntry, Made y ∧ userEntry op = some y ∧ Copyable y := fun op ho =>
    (copyAll_mem c _ _ op ho).imp id fun ⟨y, hy, hu⟩ => by
      obtain ⟨x, hx, rfl⟩ := List.mem_map.1 hy
      exact ⟨x.1, hm x hx, hu, (hcopy x hx).1⟩
  have hget : ∀ (i : Nat) (x : ZipEntry × Bytes), ks[i]? = some x → ∃ ev : List Ev, (copyAll (ks.map fun x => (⟨x.1, 0, 0⟩ : StoredZipEntry)) ((ks.map Prod.snd).zip es) c)[i]? =
      some (Op.whole x.1 x.2 false ev) := fun i x hx => by
    have hi : i < es.length := hes ▸ (List.getElem?_eq_some_iff.1 hx).1
    refine ⟨es[i], copyAll_get c _ _ i ⟨x.1, 0, 0⟩ x.2 es[i] ?_ ?_⟩
    · rw [List.getElem?_map, hx]; rfl
    · exact List.getElem?_zip_eq_some.2 ⟨by rw [List.getElem?_map, hx]; rfl, List.getElem?_eq_getElem hi⟩
  generalize hopsdef : copyAll (ks.map fun x => (⟨x.1, 0, 0⟩ : StoredZipEntry)) ((ks.map Prod.snd).zip es) c = ops at *
  have hac : archiveComment ops = c.bytes := by rw [archiveComment, ← hopsdef, copyAll_comment]
  have hrs : (runArchive C zw ops evs).1 = (runOps C zw ops).1 := rfl
  obtain ⟨r1, r2⟩ := copyAll_results C c (ks.map fun x => (⟨x.1, 0, 0⟩ : StoredZipEntry)) ((ks.map Prod.snd).zip es) zw hlen
    (hopsdef ▸ fun r hr => (hfine r (hrs ▸ hr)).1)
  rw [hopsdef, ← hrs, List.length_map] at r1 r2
  obtain ⟨f, f1, f2, f3, f4⟩ := made_at hC h hs hc hops (hac ▸ hcom) (hac ▸ hlast) (hac ▸ hloc) (fun r hr => (hfine r hr).2) hsmall b
    (r1 ▸ hb)
  have hall : ∀ i x, ks[i]? = some x → ∃ y : StoredZipEntry, f.entries[i]? = some y ∧ Copied x.1 y.entry ∧ y.entry.crc32 = crc32 x.2 ∧
      y.entry.uncompressedSize.toNat = x.2.length ∧ Copyable y.entry ∧ ∀ chunk, 0 < chunk → ∀ s : RState, s.data = sink'.bytes →
        Interrupted (checkedRead C f i chunk s).1 ∨ (checkedRead C f i chunk s).1 = .ok x.2 := fun i x hx => by
    obtain ⟨ev, hev⟩ := hget i x hx
    obtain ⟨r3, r, r4, r5⟩ := r2 i (List.getElem?_eq_some_iff.1 hx).1
    have hmem := List.mem_of_getElem? hx
    have := f4 x.1 x.2 (hm x hmem) (hcopy x hmem).1 (hcopy x hmem).2 i ev r hev r4 r5
    rw [r3] at this
    exact this
  refine ⟨f, f1, by rw [f3, hac]; rfl, ?_, fun i x hx => ?_⟩
  · refine List.forall₂_iff_get.2 ⟨by rw [f2, r1], fun i hi hi' => ?_⟩
    obtain ⟨y, hy, k1, k2, k3, _⟩ := hall i _ (List.getElem?_eq_getElem hi)
    rw [List.getElem?_eq_getElem hi'] at hy
    cases hy
    exact ⟨k1, k2, k3⟩
  · obtain ⟨y, _, _, _, _, _, k⟩ := hall i x hx
    exact k

/-- C103. The same for entries with ZIP64 fields in the form in which this crate writes them, such as streamed entries have, and
whatever their unicode fields say: the archive shows the same bytes for names, the same methods and dates, the checksum and size of
the data the client saw, and that data when read with the check. So streamed entries, whose sizes and checksums the streaming reader
does not know, have them in the archive that is made of them. Partial as for `C101_copied_partial`. -/
theorem C103_descriptors_partial (C : Codec) (hC : Lawful C) (b₀ : Build) (vs : List Visit) (s₀ : RState)
    (xs : List (ZipEntry × Option Bytes)) (ended : Bool) (h₀ : (visits C b₀ vs s₀).1 = .ok (xs, ended))
    (hzip : ∀ x ∈ kept xs, (∀ z, .zip64 z ∈ x.1.extraFields → FullField (.zip64 z)) ∧ x.2.length < 0xFFFFFFFF)
    (sink sink' : Sink) (zw : ZipWriter) (h : Created sink zw) (hs : sink.bytes = []) (es : List (List Ev))
    (hes : es.length = (kept xs).length) (c : RString) (hcom : c.bytes.length ≤ 65535)
    (evs : List Ev) (hc : (runArchive C zw (collect (kept xs) es c) evs).2.1 = .ok sink')
    (hfine : ∀ r ∈ (runArchive C zw (collect (kept xs) es c) evs).1, Fine r ∧ ¬ TooMany r)
    (hlast : LastEnd sink'.bytes (endPosition sink'.bytes c.bytes))
    (hloc : HasLocator sink'.bytes (endPosition sink'.bytes c.bytes) →
      (runArchive C zw (collect (kept xs) es c) evs).2.2.isZip64 = true)
    (hsmall : sink'.bytes.length < 0xFFFFFFFF) (b : Build) (hb : (kept xs).length ≤ b.maxVecEntries) :
    ∃ f : ZipFile, (∀ s : RState, s.data = sink'.bytes → Interrupted (openFile b s).1 ∨ (openFile b s).1 = .ok f) ∧
      f.comment.asBytes = c.bytes ∧
      List.Forall₂ (fun (x : ZipEntry × Bytes) (y : StoredZipEntry) => Kept x.1 y.entry ∧ y.entry.crc32 = crc32 x.2 ∧
        y.entry.uncompressedSize.toNat = x.2.length) (kept xs) f.entries ∧
      ∀ i x, (kept xs)[i]? = some x → ∀ chunk, 0 < chunk → ∀ s : RState, s.data = sink'.bytes →
        Interrupted (checkedRead C f i chunk s).1 ∨ (checkedRead C f i chunk s).1 = .ok x.2 := by
  have hfull : ∀ x ∈ kept xs, (∀ f ∈ x.1.extraFields, FullField f) ∧ x.2.length < 0xFFFFFFFF := fun x hx =>
    ⟨fun f hf => by
      by_cases hz : ∃ z, f = .zip64 z
      · obtain ⟨z, rfl⟩ := hz
        exact (hzip x hx).1 z hf
      · exact OwnField.wf ((kept_made h₀ x hx).own f hf fun z h => hz ⟨z, h⟩) _ _, (hzip x hx).2⟩
  clear hzip
  generalize kept xs = ks at *
  rw [collect_copyAll] at *
  have hlen : (ks.map fun x => (⟨x.1, 0, 0⟩ : StoredZipEntry)).length = ((ks.map Prod.snd).zip es).length := by
    rw [List.length_zip, List.length_map, List.length_map, hes, Nat.min_self]
  have hops : ∀ op ∈ copyAll (ks.map fun x => (⟨x.1, 0, 0⟩ : StoredZipEntry)) ((ks.map Prod.snd).zip es) c,
      (∃ x ∈ ks, ∃ ev : List Ev, op = Op.whole x.1 x.2 false ev) ∨ op = .comment c := fun op ho =>
    (copyAll_whole c _ _ op ho).imp (fun ⟨i, y, d, ev, h1, h2, h3⟩ => by
      rw [List.getElem?_map, Option.map_eq_some_iff] at h1
      obtain ⟨x, hx, rfl⟩ := h1
      obtain ⟨h2, _⟩ := List.getElem?_zip_eq_some.1 h2
      rw [List.getElem?_map, hx] at h2
      cases h2
      exact ⟨x, List.mem_of_getElem? hx, ev, h3⟩) id
  have hget : ∀ (i : Nat) (x : ZipEntry × Bytes), ks[i]? = some x → ∃ ev : List Ev,
      (copyAll (ks.map fun x => (⟨x.1, 0, 0⟩ : StoredZipEntry)) ((ks.map Prod.snd).zip es) c)[i]? =
        some (Op.whole x.1 x.2 false ev) := fun i x hx => by
    have hi : i < es.length := hes ▸ (List.getElem?_eq_some_iff.1 hx).1
    refine ⟨es[i], copyAll_get c _ _ i ⟨x.1, 0, 0⟩ x.2 es[i] ?_ ?_⟩
    · rw [List.getElem?_map, hx]; rfl
    · exact List.getElem?_zip_eq_some.2 ⟨by rw [List.getElem?_map, hx]; rfl, List.getElem?_eq_getElem hi⟩
  generalize hopsdef : copyAll (ks.map fun x => (⟨x.1, 0, 0⟩ : StoredZipEntry)) ((ks.map Prod.snd).zip es) c = ops at *
  have hac : archiveComment ops = c.bytes := by rw [archiveComment, ← hopsdef, copyAll_comment]
  have hrs : (runArchive C zw ops evs).1 = (runOps C zw ops).1 := rfl
  obtain ⟨r1, r2⟩ := copyAll_results C c (ks.map fun x => (⟨x.1, 0, 0⟩ : StoredZipEntry)) ((ks.map Prod.snd).zip es) zw hlen
    (hopsdef ▸ fun r hr => (hfine r (hrs ▸ hr)).1)
  rw [hopsdef, ← hrs, List.length_map] at r1 r2
  have hlt : ∀ x ∈ ks, (UInt64.ofNat x.2.length).toNat = x.2.length := fun x hx => by
    have := (hfull x hx).2
    rw [UInt64.toNat_ofNat']
    omega
  obtain ⟨ls, is, f, g1, _, g3, g4, g5, g6, g7⟩ := C101_restored_partial b C hC sink sink' zw h hs ops evs hc
    ⟨hac ▸ hcom, hac ▸ hlast, hac ▸ hloc, fun r hr => (hfine r hr).2, by omega⟩ (fun op ho f hf => by
      rcases hops op ho with ⟨x, hx, ev, rfl⟩ | rfl
      · exact (hfull x hx).1 f hf
      · cases hf) hsmall (fun ls hp l hl => by
      obtain ⟨op, h1, r, _, ha⟩ := Program.asked hp l hl
      rcases hops op h1 with ⟨x, hx, ev, rfl⟩ | rfl
      · have := (hfull x hx).2
        cases ha
        refine ⟨?_, fun _ => rfl⟩
        show (UInt64.ofNat x.2.length).toNat < 0xFFFFFFFF
        rw [hlt x hx]
        exact this
      · cases ha) (r1 ▸ hb)
  have hall : ∀ i x, ks[i]? = some x → ∃ y : StoredZipEntry, f.entries[i]? = some y ∧
      (Kept x.1 y.entry ∧ y.entry.crc32 = crc32 x.2 ∧ y.entry.uncompressedSize.toNat = x.2.length) ∧
      ∀ chunk, 0 < chunk → ∀ s : RState, s.data = sink'.bytes →
        Interrupted (checkedRead C f i chunk s).1 ∨ (checkedRead C f i chunk s).1 = .ok x.2 := fun i x hx => by
    obtain ⟨ev, hop⟩ := hget i x hx
    obtain ⟨r3, r, r4, r5⟩ := r2 i (List.getElem?_eq_some_iff.1 hx).1
    have hil : isListed (.whole r) = true := decide_eq_true r5
    obtain ⟨l, hl, ha⟩ := Program.nth g1 hop r4 hil
    have hdata := g7 i _ _ x.2 hop r4 hil (.whole _ _ _ _)
    rw [r3] at hl hdata
    obtain ⟨it, hit, hsh⟩ := forall₂_get' g5 hl
    obtain ⟨y, hy, hm⟩ := forall₂_get' g6 hit
    obtain ⟨k1, k2, k3⟩ := shows_kept hsh hm
    cases ha
    refine ⟨y, hy, ⟨k1, k2, ?_⟩, hdata⟩
    rw [k3]
    exact hlt x (List.mem_of_getElem? hx)
  refine ⟨f, g3, by rw [g4, hac], ?_, fun i x hx => ?_⟩
  · refine List.forall₂_iff_get.2 ⟨by rw [← g6.length_eq, ← g5.length_eq, Program.count g1, r1], fun i hi hi' => ?_⟩
    obtain ⟨y, hy, k1, _⟩ := hall i _ (List.getElem?_eq_getElem hi)
    rw [List.getElem?_eq_getElem hi'] at hy
    cases hy
    exact k1
  · obtain ⟨y, _, _, k⟩ := hall i x hx
    exact k

theorem ReadSomewhere.made {e : ZipEntry} (h : ReadSomewhere e) : Made e := by
  cases h with
  | listed b s f x opened mem eq =>
    rw [← eq]
    exact openFile_made (Prod.ext opened rfl : openFile b s = (.ok f, (openFile b s).2)) x mem
  | met C b vs s xs ended d seen mem =>
    exact visits_made vs (Prod.ext seen rfl : visits C b vs s = (.ok (xs, ended), (visits C b vs s).2)) (e, d) mem

/-- C103. An archive put together from entries that were read from any number of archives and streams, whoever made them, and of
new ones, by any program, in which calls may also fail or be abandoned: the library opens it, shows as many entries as calls were
listed, and for each listed call that writes an entry from elsewhere in one go, with any data, there is an entry in its place with
the same name, comment, method, date, attributes and extra fields, the checksum and size of the data, and the data when read with the
check. Partial as `C103_collected_partial`. -/
theorem C103_assembled_partial (C : Codec) (hC : Lawful C) (sink sink' : Sink) (zw : ZipWriter) (h : Created sink zw)
    (hs : sink.bytes = []) (ops : List Op) (evs : List Ev) (hc : (runArchive C zw ops evs).2.1 = .ok sink')
    (hops : ∀ op ∈ ops, (∀ f ∈ userFields op, OwnField f) ∨ ∃ y, userEntry op = some y ∧ ReadSomewhere y ∧ Copyable y)
    (hcom : (archiveComment ops).length ≤ 65535) (hlast : LastEnd sink'.bytes (endPosition sink'.bytes (archiveComment ops)))
    (hloc : HasLocator sink'.bytes (endPosition sink'.bytes (archiveComment ops)) →
      (runArchive C zw ops evs).2.2.isZip64 = true)
    (hcount : ∀ r ∈ (runArchive C zw ops evs).1, ¬ TooMany r) (hsmall : sink'.bytes.length ≤ 0xFFFFFFFF)
    (b : Build) (hb : (runArchive C zw ops evs).1.countP isListed ≤ b.maxVecEntries) :
    ∃ f : ZipFile, (∀ s : RState, s.data = sink'.bytes → Interrupted (openFile b s).1 ∨ (openFile b s).1 = .ok f) ∧
      f.entries.length = (runArchive C zw ops evs).1.countP isListed ∧ f.comment.asStr = .ok (archiveComment ops) ∧
      ∀ (k : Nat) (x : ZipEntry) (d : Bytes) (ev : List Ev) (r : Res Unit), ops[k]? = some (.whole x d false ev) →
        ReadSomewhere x → Copyable x → d.length ≤ 0xFFFFFFFF → (runArchive C zw ops evs).1[k]? = some (.whole r) → Listed r →
        ∃ y : StoredZipEntry, f.entries[((runArchive C zw ops evs).1.take k).countP isListed]? = some y ∧
          Copied x y.entry ∧ y.entry.crc32 = crc32 d ∧ y.entry.uncompressedSize.toNat = d.length ∧
          ∀ chunk, 0 < chunk → ∀ s : RState, s.data = sink'.bytes →
            Interrupted (checkedRead C f (((runArchive C zw ops evs).1.take k).countP isListed) chunk s).1 ∨
            (checkedRead C f (((runArchive C zw ops evs).1.take k).countP isListed) chunk s).1 = .ok d := by
  obtain ⟨f, f1, f2, f3, f4⟩ := made_at hC h hs hc (fun op ho => (hops op ho).imp id fun ⟨y, h1, h2, h3⟩ =>
    ⟨y, ReadSomewhere.made h2, h1, h3⟩) hcom hlast hloc hcount hsmall b hb
  refine ⟨f, f1, f2, by rw [f3]; rfl, fun k x d ev r hop hx hcp hlen hr hl => ?_⟩
  obtain ⟨y, g1, g2, g3, g4, _, g5⟩ := f4 x d (ReadSomewhere.made hx) hcp hlen k ev r hop hr hl
  exact ⟨y, g1, g2, g3, g4, g5⟩

/-! ## Concrete cases -/

namespace Samples

/-- The three entries of `tour` as the streaming reader shows them. -/
def seenFirst : ZipEntry :=
  { filename := ⟨.utf8, [97, 46, 116], none⟩, compression := .stored, compressionLevel := .default, crc32 := 3633523372
    uncompressedSize := 2, compressedSize := 2, attributeCompatibility := .unix, lastModificationDate := ⟨20514, 6275⟩
    internalFileAttribute := 0, externalFileAttribute := 0, extraFields := [], comment := ⟨.utf8, [], none⟩, dataDescriptor := false }

@[inherit_doc seenFirst]
def seenSecond : ZipEntry :=
  { filename := ⟨.utf8, [98], none⟩, compression := .deflate, compressionLevel := .default, crc32 := 0
    uncompressedSize := 0, compressedSize := 0, attributeCompatibility := .unix, lastModificationDate := ⟨0, 0⟩
    internalFileAttribute := 0, externalFileAttribute := 0, extraFields := [.zip64 ⟨1, some 0, some 0, none, none⟩]
    comment := ⟨.utf8, [], none⟩, dataDescriptor := true }

@[inherit_doc seenFirst]
def seenThird : ZipEntry :=
  { filename := ⟨.utf8, [98], none⟩, compression := .deflate, compressionLevel := .default, crc32 := 2724731650
    uncompressedSize := 1, compressedSize := 3, attributeCompatibility := .unix, lastModificationDate := ⟨0, 0⟩
    internalFileAttribute := 0, externalFileAttribute := 0, extraFields := [], comment := ⟨.utf8, [], none⟩, dataDescriptor := false }

/-- What is made of the first and the second entry, of which the latter was streamed. -/
def collectedBytes : Bytes :=
  [80, 75, 3, 4, 10, 0, 0, 8, 0, 0, 131, 24, 34, 80, 172, 42, 147, 216, 2, 0, 0, 0, 2, 0, 0, 0, 3, 0, 0, 0, 97, 46,
   116, 104, 105, 80, 75, 3, 4, 20, 0, 0, 8, 8, 0, 0, 0, 0, 0, 59, 253, 11, 75, 7, 0, 0, 0, 3, 0, 0, 0, 1, 0, 20, 0,
   98, 1, 0, 16, 0, 0, 0, 0, 0, 0, 0, 0, 0, 0, 0, 0, 0, 0, 0, 0, 0, 1, 7, 1, 8, 1, 9, 0, 80, 75, 1, 2, 63, 3, 10, 0, 0,
   8, 0, 0, 131, 24, 34, 80, 172, 42, 147, 216, 2, 0, 0, 0, 2, 0, 0, 0, 3, 0, 0, 0, 0, 0, 0, 0, 0, 0, 0, 0, 0, 0, 0, 0,
   0, 0, 97, 46, 116, 80, 75, 1, 2, 63, 3, 20, 0, 0, 8, 8, 0, 0, 0, 0, 0, 59, 253, 11, 75, 7, 0, 0, 0, 3, 0, 0, 0, 1,
   0, 20, 0, 0, 0, 0, 0, 0, 0, 0, 0, 0, 0, 35, 0, 0, 0, 98, 1, 0, 16, 0, 0, 0, 0, 0, 0, 0, 0, 0, 0, 0, 0, 0, 0, 0, 0,
   0, 80, 75, 5, 6, 0, 0, 0, 0, 2, 0, 2, 0, 116, 0, 0, 0, 93, 0, 0, 0, 1, 0, 99]

/-- What is made of the first and the third entry. -/
def selectedBytes : Bytes :=
  [80, 75, 3, 4, 10, 0, 0, 8, 0, 0, 131, 24, 34, 80, 172, 42, 147, 216, 2, 0, 0, 0, 2, 0, 0, 0, 3, 0, 0, 0, 97, 46,
   116, 104, 105, 80, 75, 3, 4, 20, 0, 0, 8, 8, 0, 0, 0, 0, 0, 2, 27, 104, 162, 3, 0, 0, 0, 1, 0, 0, 0, 1, 0, 0, 0, 98,
   1, 5, 0, 80, 75, 1, 2, 63, 3, 10, 0, 0, 8, 0, 0, 131, 24, 34, 80, 172, 42, 147, 216, 2, 0, 0, 0, 2, 0, 0, 0, 3, 0,
   0, 0, 0, 0, 0, 0, 0, 0, 0, 0, 0, 0, 0, 0, 0, 0, 97, 46, 116, 80, 75, 1, 2, 63, 3, 20, 0, 0, 8, 8, 0, 0, 0, 0, 0, 2,
   27, 104, 162, 3, 0, 0, 0, 1, 0, 0, 0, 1, 0, 0, 0, 0, 0, 0, 0, 0, 0, 0, 0, 0, 0, 35, 0, 0, 0, 98, 80, 75, 5, 6, 0, 0,
   0, 0, 2, 0, 2, 0, 96, 0, 0, 0, 69, 0, 0, 0, 1, 0, 99]

theorem tour_seen : (visits markCodec checkedBuild [.check 2, .read 5, .skip, .skip] (prompt tourBytes)).1 =
    .ok ([(seenFirst, some [104, 105]), (seenSecond, some [7, 8, 9]), (seenThird, none)], true) := by decide +kernel

theorem tour_selected : (visits markCodec checkedBuild [.check 2, .skip, .read 5] (prompt tourBytes)).1 =
    .ok ([(seenFirst, some [104, 105]), (seenSecond, none), (seenThird, some [5])], false) := by decide +kernel

theorem collected_archive :
    (runArchive markCodec fresh (collect [(seenFirst, [104, 105]), (seenSecond, [7, 8, 9])] [eager, slow] ⟨[99], by decide⟩) eager).1 =
      [.whole (.ok ()), .whole (.ok ()), .comment] ∧
    (runArchive markCodec fresh (collect [(seenFirst, [104, 105]), (seenSecond, [7, 8, 9])] [eager, slow] ⟨[99], by decide⟩) eager).2.1 =
      .ok ⟨collectedBytes, 0, 0⟩ := by decide +kernel

theorem selected_archive :
    (runArchive markCodec fresh (collect [(seenFirst, [104, 105]), (seenThird, [5])] [eager, slow] ⟨[99], by decide⟩) eager).1 =
      [.whole (.ok ()), .whole (.ok ()), .comment] ∧
    (runArchive markCodec fresh (collect [(seenFirst, [104, 105]), (seenThird, [5])] [eager, slow] ⟨[99], by decide⟩) eager).2.1 =
      .ok ⟨selectedBytes, 0, 0⟩ := by decide +kernel

/-- An entry of the foreign archive, one that was met in a stream, and a new one. -/
def assembled : List Op :=
  [.whole foreignEntry.entry [104, 105] false eager, .whole seenThird [5] false slow, .whole storedEntry [1] false eager]

/-- What comes of it. -/
def assembledBytes : Bytes :=
  [80, 75, 3, 4, 20, 0, 0, 0, 8, 0, 131, 24, 34, 80, 172, 42, 147, 216, 5, 0, 0, 0, 2, 0, 0, 0, 1, 0, 29, 0, 233, 1,
   153, 3, 0, 7, 8, 9, 117, 112, 7, 0, 1, 81, 181, 212, 11, 195, 169, 117, 99, 7, 0, 1, 62, 141, 4, 14, 195, 169, 1,
   104, 1, 105, 0, 80, 75, 3, 4, 20, 0, 0, 8, 8, 0, 0, 0, 0, 0, 2, 27, 104, 162, 3, 0, 0, 0, 1, 0, 0, 0, 1, 0, 0, 0,
   98, 1, 5, 0, 80, 75, 3, 4, 10, 0, 0, 8, 0, 0, 131, 24, 34, 80, 27, 223, 5, 165, 1, 0, 0, 0, 1, 0, 0, 0, 3, 0, 0, 0,
   97, 46, 116, 1, 80, 75, 1, 2, 63, 3, 20, 0, 0, 0, 8, 0, 131, 24, 34, 80, 172, 42, 147, 216, 5, 0, 0, 0, 2, 0, 0, 0,
   1, 0, 29, 0, 2, 0, 0, 0, 0, 0, 0, 0, 164, 1, 0, 0, 0, 0, 233, 1, 153, 3, 0, 7, 8, 9, 117, 112, 7, 0, 1, 81, 181,
   212, 11, 195, 169, 117, 99, 7, 0, 1, 62, 141, 4, 14, 195, 169, 195, 169, 80, 75, 1, 2, 63, 3, 20, 0, 0, 8, 8, 0, 0,
   0, 0, 0, 2, 27, 104, 162, 3, 0, 0, 0, 1, 0, 0, 0, 1, 0, 0, 0, 0, 0, 0, 0, 0, 0, 0, 0, 0, 0, 65, 0, 0, 0, 98, 80, 75,
   1, 2, 63, 3, 10, 0, 0, 8, 0, 0, 131, 24, 34, 80, 27, 223, 5, 165, 1, 0, 0, 0, 1, 0, 0, 0, 3, 0, 0, 0, 0, 0, 0, 0, 0,
   0, 0, 0, 0, 0, 99, 0, 0, 0, 97, 46, 116, 80, 75, 5, 6, 0, 0, 0, 0, 3, 0, 3, 0, 174, 0, 0, 0, 133, 0, 0, 0, 0, 0]

theorem assembled_archive :
    (runArchive markCodec fresh assembled eager).1 = [.whole (.ok ()), .whole (.ok ()), .whole (.ok ())] ∧
    (runArchive markCodec fresh assembled eager).2.1 = .ok ⟨assembledBytes, 0, 0⟩ := by decide +kernel

theorem third_met : ReadSomewhere seenThird :=
  .met _ _ _ _ _ _ (some [5]) tour_selected (List.mem_cons_of_mem _ (List.mem_cons_of_mem _ List.mem_cons_self))

theorem foreign_listed : ReadSomewhere foreignEntry.entry :=
  .listed _ _ _ foreignEntry foreign_opens (List.mem_cons_of_mem _ List.mem_cons_self) rfl

end Samples

/-- The second entry of the stream has been skipped. -/
example (b : Build) (hb : 2 ≤ b.maxVecEntries) : ∃ f : ZipFile,
    (∀ s : RState, s.data = Samples.selectedBytes → Interrupted (openFile b s).1 ∨ (openFile b s).1 = .ok f) ∧
    f.comment.asStr = .ok [99] ∧ ∀ s : RState, s.data = Samples.selectedBytes →
      Interrupted (checkedRead Samples.markCodec f 1 9 s).1 ∨ (checkedRead Samples.markCodec f 1 9 s).1 = .ok [5] := by
  obtain ⟨f, h1, h2, _, h3⟩ := C103_collected_partial Samples.markCodec Samples.markCodec_lawful Samples.checkedBuild _ _ _ _
    Samples.tour_selected (by
      intro x hx
      have hx : x ∈ [(Samples.seenFirst, [104, 105]), (Samples.seenThird, [5])] := hx
      simp only [List.mem_cons, List.not_mem_nil, or_false] at hx
      rcases hx with rfl | rfl <;>
        exact ⟨⟨fun _ h => (by cases h), fun _ h => (by cases h), fun _ h => (by cases h)⟩, by decide⟩)
    ⟨[], 0, 0⟩ ⟨Samples.selectedBytes, 0, 0⟩ Samples.fresh .new rfl [Samples.eager, Samples.slow] rfl ⟨[99], by decide⟩ (by decide)
    Samples.eager Samples.selected_archive.2 (by
      show ∀ r ∈ (runArchive Samples.markCodec Samples.fresh (collect [(Samples.seenFirst, [104, 105]), (Samples.seenThird, [5])]
        [Samples.eager, Samples.slow] ⟨[99], by decide⟩) Samples.eager).1, _
      rw [Samples.selected_archive.1]
      simp only [List.forall_mem_cons]
      exact ⟨⟨Or.inl rfl, fun h => (by cases h)⟩, ⟨Or.inl rfl, fun h => (by cases h)⟩, ⟨trivial, id⟩, fun _ h => (by cases h)⟩)
    (lastEnd_of_decide (by decide +kernel)) (by decide +kernel) (by decide +kernel) b hb
  exact ⟨f, h1, h2, fun s hs => h3 1 _ rfl 9 (by decide) s hs⟩

/-- The second entry of the stream was streamed when it was written: its header has neither checksum nor sizes, the one in the new
archive has both. -/
example (b : Build) (hb : 2 ≤ b.maxVecEntries) : ∃ f : ZipFile,
    (∀ s : RState, s.data = Samples.collectedBytes → Interrupted (openFile b s).1 ∨ (openFile b s).1 = .ok f) ∧
    (∃ y, f.entries[1]? = some y ∧ y.entry.crc32 = crc32 [7, 8, 9] ∧ y.entry.uncompressedSize.toNat = 3) ∧
    ∀ s : RState, s.data = Samples.collectedBytes →
      Interrupted (checkedRead Samples.markCodec f 1 9 s).1 ∨ (checkedRead Samples.markCodec f 1 9 s).1 = .ok [7, 8, 9] := by
  obtain ⟨f, h1, _, h2, h3⟩ := C103_descriptors_partial Samples.markCodec Samples.markCodec_lawful Samples.checkedBuild _ _ _ _
    Samples.tour_seen (by
      intro x hx
      have hx : x ∈ [(Samples.seenFirst, [104, 105]), (Samples.seenSecond, [7, 8, 9])] := hx
      simp only [List.mem_cons, List.not_mem_nil, or_false] at hx
      rcases hx with rfl | rfl
      · exact ⟨fun _ h => (by cases h), by decide⟩
      · refine ⟨fun z hz => ?_, by decide⟩
        cases List.mem_singleton.1 hz
        exact ⟨rfl, ⟨fun _ => rfl, fun _ => rfl⟩, ⟨fun _ => rfl, fun _ => rfl⟩, rfl⟩)
    ⟨[], 0, 0⟩ ⟨Samples.collectedBytes, 0, 0⟩ Samples.fresh .new rfl [Samples.eager, Samples.slow] rfl ⟨[99], by decide⟩ (by decide)
    Samples.eager Samples.collected_archive.2 (by
      show ∀ r ∈ (runArchive Samples.markCodec Samples.fresh (collect [(Samples.seenFirst, [104, 105]), (Samples.seenSecond, [7, 8, 9])]
        [Samples.eager, Samples.slow] ⟨[99], by decide⟩) Samples.eager).1, _
      rw [Samples.collected_archive.1]
      simp only [List.forall_mem_cons]
      exact ⟨⟨Or.inl rfl, fun h => (by cases h)⟩, ⟨Or.inl rfl, fun h => (by cases h)⟩, ⟨trivial, id⟩, fun _ h => (by cases h)⟩)
    (lastEnd_of_decide (by decide +kernel)) (by decide +kernel) (by decide +kernel) b hb
  obtain ⟨y, hy, _, k1, k2⟩ := forall₂_get' h2 (show (kept _)[1]? = some (Samples.seenSecond, [7, 8, 9]) from rfl)
  exact ⟨f, h1, ⟨y, hy, k1, k2⟩, fun s hs => h3 1 _ rfl 9 (by decide) s hs⟩

/-- The entry from the stream, between the one from another archive and the new one. -/
example (b : Build) (hb : 3 ≤ b.maxVecEntries) : ∃ f : ZipFile,
    (∀ s : RState, s.data = Samples.assembledBytes → Interrupted (openFile b s).1 ∨ (openFile b s).1 = .ok f) ∧ f.entries.length = 3 ∧
    ∃ y, f.entries[1]? = some y ∧ Copied Samples.seenThird y.entry := by
  have hthird : Copyable Samples.seenThird := ⟨fun _ h => (by cases h), fun _ h => (by cases h), fun _ h => (by cases h)⟩
  obtain ⟨f, h1, h2, _, h3⟩ := C103_assembled_partial Samples.markCodec Samples.markCodec_lawful ⟨[], 0, 0⟩
    ⟨Samples.assembledBytes, 0, 0⟩ Samples.fresh .new rfl Samples.assembled Samples.eager Samples.assembled_archive.2 (by
      intro op ho
      unfold Samples.assembled at ho
      simp only [List.mem_cons, List.not_mem_nil, or_false] at ho
      rcases ho with rfl | rfl | rfl
      · exact Or.inr ⟨_, rfl, Samples.foreign_listed, Samples.foreign_copyable⟩
      · exact Or.inr ⟨_, rfl, Samples.third_met, hthird⟩
      · exact Or.inl fun _ h => (by cases h))
    (by decide) (lastEnd_of_decide (by decide +kernel)) (by decide +kernel) (by
      rw [Samples.assembled_archive.1]
      simp only [List.forall_mem_cons]
      exact ⟨fun h => (by cases h), fun h => (by cases h), fun h => (by cases h), fun _ h => (by cases h)⟩) (by decide +kernel) b
    (by rw [Samples.assembled_archive.1]; exact hb)
  have hcount : ((runArchive Samples.markCodec Samples.fresh Samples.assembled Samples.eager).1.take 1).countP isListed = 1 := by
    rw [Samples.assembled_archive.1]; decide
  obtain ⟨y, g1, g2, _⟩ := h3 1 Samples.seenThird [5] Samples.slow (.ok ()) rfl Samples.third_met hthird (by decide)
    (by rw [Samples.assembled_archive.1]; rfl) (Or.inl rfl)
  rw [hcount] at g1
  exact ⟨f, h1, by rw [h2, Samples.assembled_archive.1]; decide, y, g1, g2⟩

end AsyncZip
