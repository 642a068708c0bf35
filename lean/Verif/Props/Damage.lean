import Verif.Props.Tiling
import Verif.Props.Frame
import Verif.Props.Own
import Verif.Props.Agree
/-!
# C70: damage to an archive
-/

namespace AsyncZip
open Spec Rd

theorem LastEnd.replace {x y r : Bytes} {j : Nat} (hxy : x.length = y.length) (hj : x.length ≤ j) (he : LastEnd (x ++ r) j) :
    LastEnd (y ++ r) j := by
  refine ⟨?_, fun j' hj' => ?_⟩
  · rw [occursAt_append_right (by omega), ← hxy, ← occursAt_append_right (by omega)]
    exact he.1
  · by_cases hc : x.length ≤ j'
    · rw [occursAt_append_right (by omega), ← hxy, ← occursAt_append_right hc] at hj'
      exact he.2 j' hj'
    · omega

theorem HasLocator.replace {x y r : Bytes} {j : Nat} (hxy : x.length = y.length) (hj : x.length ≤ j - 20)
    (h : HasLocator (y ++ r) j) : HasLocator (x ++ r) j := by
  refine ⟨h.1, ?_⟩
  have := h.2
  rwa [occursAt_append_right (by omega), ← hxy, ← occursAt_append_right (by omega)] at this

/-- Opening an archive of which everything before the directory was replaced. -/
theorem Finished.reopens {b : Build} {C : Codec} {sink : Sink} {zw : ZipWriter} {ops : List Op} {evs : List Ev}
    {bytes out cd out' : Bytes} {J : Prop} {ps : List (Listing × CdEntry)} {offs : List Nat} {z : Bool} {f : ZipFile}
    (fin : Finished C zw ops evs bytes J out ps offs cd z) (h : Created sink zw)
    (hleg : Legible ops (runArchive C zw ops evs).1 (runArchive C zw ops evs).2.2.isZip64 bytes)
    (hv : ps.length ≤ b.maxVecEntries) (hne : ps ≠ [])
    (hf : List.Forall₂ (fun (q : (Listing × CdEntry) × Nat) e => Shown b zw.forceNoZip64 q.1 q.2 e) (ps.zip offs) f.entries)
    (hz : f.zip64 = (runArchive C zw ops evs).2.2.isZip64) (hcm : f.comment = ⟨.utf8, archiveComment ops, none⟩)
    (hout : out.length = out'.length) (s : RState)
    (hs : s.data = out' ++ (cd ++ endBytes z ps.length cd.length out.length (commentBytes (finalComment none ops)))) :
    Interrupted (openFile b s).1 ∨ (openFile b s).1 = .ok f := by
  obtain ⟨hown, hcom, hlast, hloc, hcount, hsize⟩ := hleg
  rw [← fin.zip] at hloc hz
  rw [endPosition] at hlast hloc
  rw [← commentBytes_eq] at hcom hlast hloc
  have hpos : bytes.length - (22 + (commentBytes (finalComment none ops)).length) = endAt out cd z := by
    rw [fin.bytes, archive_length]; omega
  rw [hpos] at hlast hloc
  rw [fin.bytes, archiveBytes] at hlast hloc
  have hcd : 20 ≤ cd.length := by
    have := fin.directory.length
    rw [List.length_map] at this
    have : 0 < ps.length := List.length_pos_iff.2 hne
    omega
  have hj : out.length ≤ endAt out cd z - 20 := by unfold endAt; omega
  have hreads : List.Forall₂ (Reads b) (ps.map Prod.snd) f.entries := by
    have hl := fin.placed.length_eq
    clear hlast hloc hcount hsize hv hne hcd hj hpos hcm hs hz fin
    generalize f.entries = es at hf
    induction ps generalizing offs es with
    | nil => cases hf; exact .nil
    | cons p ps ih =>
      cases offs with
      | nil => cases hl
      | cons off offs =>
        cases hf with
        | cons h1 h2 => exact .cons h1.reads (ih (Nat.succ.inj hl) _ h2)
  have hcs : (ps.map Prod.snd).length = ps.length := List.length_map _
  have hlen : (archiveBytes out' cd z ps.length (commentBytes (finalComment none ops))).length < 2 ^ 64 := by
    rw [fin.bytes, archive_length] at hsize
    rw [archive_length]
    unfold endAt at hsize ⊢
    omega
  have hl := LastEnd.replace hout (by omega) hlast
  have hloc' : HasLocator (out' ++ (cd ++ endBytes z ps.length cd.length out.length (commentBytes (finalComment none ops))))
      (endAt out cd z) → z = true := fun hx => hloc (HasLocator.replace hout hj hx)
  have heq : endAt out cd z = endAt out' cd z := by unfold endAt; rw [hout]
  rw [hout, heq] at hl hloc'
  have hz' : z = false → ¬ HasLocator (archiveBytes out' cd z ps.length (commentBytes (finalComment none ops))) (endAt out' cd z) ∧
      ps.length ≤ 0xFFFF ∧ out'.length ≤ 0xFFFFFFFF := by
    intro hzf
    refine ⟨fun hx => ?_, ?_, ?_⟩
    · have := hloc' hx
      rw [hzf] at this; cases this
    · obtain ⟨_, he, _⟩ := Created.facts h
      cases hfz : zw.forceNoZip64 with
      | true =>
        have := runOps_tooMany C ops zw hfz (by rw [he]; exact Nat.zero_le _) hcount
        rw [fin.entries, List.length_map] at this
        exact this
      | false =>
        refine Nat.le_of_not_lt fun hn => ?_
        have := fin.count hfz hn
        rw [hzf] at this; cases this
    · rw [← hout]
      refine Nat.le_of_not_lt fun hn => ?_
      have := fin.far hn
      rw [hzf] at this; cases this
  obtain ⟨pos', hrun⟩ := reopen (b := b) (out := out') (z := z) (comment := commentBytes (finalComment none ops)) fin.directory hreads
    (by rw [hcs]; exact hl) hcom (by rw [hcs]; exact hz') (by rw [hcs]; exact hlen) (by rw [hcs]; exact hv) s.pos
  have hfe : f = { entries := f.entries, zip64 := z, comment := ZipString.new (commentBytes (finalComment none ops)) .utf8 } := by
    obtain ⟨es, z', cm⟩ := f
    simp only at hz hcm ⊢
    rw [hz, hcm, commentBytes_eq, ZipString.new, archiveComment_valid]
    rfl
  rw [hfe]
  rw [hcs] at hrun
  refine (hrun.of_chunkIndep (openFile_chunkIndep b) s ?_ rfl).imp id fun h => h.1
  rw [hs, archiveBytes, hout]

/-- What a checked read returns matches the checksum of the directory. -/
theorem checkedRead_matches {C : Codec} {f : ZipFile} {i chunk : Nat} {e : StoredZipEntry} {s s' : RState} {x : Bytes}
    (he : f.entries[i]? = some e) (hc : 0 < chunk) (h : checkedRead C f i chunk s = (.ok x, s')) : crc32 x = e.entry.crc32 := by
  unfold checkedRead at h
  obtain ⟨⟨er, ze⟩, s1, h1, h⟩ := bind_ok_iff.1 h
  unfold readerWithEntry at h1
  rw [he] at h1
  simp only at h1
  obtain ⟨u, s2, _, h1⟩ := bind_ok_iff.1 h1
  cases h1
  obtain ⟨⟨y, er'⟩, s3, h3, h⟩ := bind_ok_iff.1 h
  cases h
  exact (C24_ok_matches C _ _ _ hc _ _ _ _ _ _ _ _ (.refl _ _) h3).1

theorem window_getElem? (data : Bytes) (off n p : Nat) : (window data off n)[p]? = if p < n then data[off + p]? else none := by
  unfold window
  rw [List.getElem?_take]
  split
  · rw [List.getElem?_drop]
  · rfl

theorem window_of_same {a b : Bytes} {off n : Nat} (h : ∀ p, off ≤ p → p < off + n → b[p]? = a[p]?) :
    window b off n = window a off n := by
  refine List.ext_getElem? fun p => ?_
  rw [window_getElem?, window_getElem?]
  split
  · exact h _ (by omega) (by omega)
  · rfl

theorem drop_of_same {a b : Bytes} {off : Nat} (h : ∀ p, off ≤ p → b[p]? = a[p]?) : b.drop off = a.drop off := by
  refine List.ext_getElem? fun p => ?_
  rw [List.getElem?_drop, List.getElem?_drop]
  exact h _ (by omega)

theorem window_length {data : Bytes} {off n : Nat} (h : off + n ≤ data.length) : (window data off n).length = n := by
  unfold window
  rw [List.length_take, List.length_drop]
  omega

theorem window_split (data : Bytes) (off n m : Nat) : window data off (n + m) = window data off n ++ window data (off + n) m := by
  unfold window
  rw [List.take_add, List.drop_drop]

/-- A checked read of a stored entry with a small change inside its data. -/
theorem checkedRead_burst {C : Codec} {f : ZipFile} {i chunk lo n start : Nat} {e : StoredZipEntry} {bytes d : Bytes} {s : RState}
    (he : f.entries[i]? = some e) (hm : e.entry.compression = .stored) (hsize : e.entry.compressedSize.toNat = d.length)
    (hcrc : e.entry.crc32 = crc32 d) (hc : 0 < chunk) (hrun : Runs (seekToDataOffset e) bytes s.pos (.ok ()) start)
    (hd : window bytes start d.length = d) (hlen : start + d.length ≤ bytes.length) (hx : s.data.length = bytes.length)
    (hh : window bytes e.fileOffset 30 = window s.data e.fileOffset 30)
    (hn : n ≤ 4) (hlo : start ≤ lo) (hhi : lo + n ≤ start + d.length)
    (hsame : ∀ p, start ≤ p → p < start + d.length → p < lo ∨ lo + n ≤ p → s.data[p]? = bytes[p]?)
    (hdiff : ∃ p, lo ≤ p ∧ p < lo + n ∧ s.data[p]? ≠ bytes[p]?) :
    Interrupted (checkedRead C f i chunk s).1 ∨ (checkedRead C f i chunk s).1 = .error (.err .crc32CheckError) := by
  have hon := seekToDataOffset_on { e with entry := { e.entry with compressedSize := 0 } } (s.on bytes) s.data
    ⟨window_agree hh (Nat.le_refl _) (by simp), congrArg List.length hh, window_agree hh (by simp) (by simp), rfl⟩
  have hon' : seekToDataOffset e s = ((seekToDataOffset e (s.on bytes)).1, (seekToDataOffset e (s.on bytes)).2.on s.data) := hon
  unfold checkedRead readerWithEntry
  rw [he]
  simp only
  rcases hrun.of_chunkIndep (seekToDataOffset_chunkIndep e) (s.on bytes) rfl rfl with hi | ⟨h1, h2, h3⟩
  · left
    cases hr : seekToDataOffset e s with
    | mk r s1 =>
      rw [hr] at hon'
      cases r with
      | ok u =>
        rw [← (Prod.mk.inj hon').1] at hi
        exact absurd hi not_interrupted_ok
      | error y =>
        rw [← (Prod.mk.inj hon').1] at hi
        rw [bind_of_error (bind_of_error hr)]
        exact interrupted_cast hi
  · rw [h1] at hon'
    have hopen : (seekToDataOffset e >>= fun _ => pure (EntryReader.new e.entry.compression e.entry.compressedSize.toNat, e.entry)) s =
        (.ok (EntryReader.new e.entry.compression e.entry.compressedSize.toNat, e.entry), (seekToDataOffset e (s.on bytes)).2.on s.data) :=
      bind_of_ok hon'
    rw [bind_of_ok hopen]
    simp only
    have hsplit : ∀ data : Bytes, window data start d.length =
        window data start (lo - start) ++ window data lo n ++ window data (lo + n) (start + d.length - (lo + n)) := fun data => by
      have e1 : d.length = (lo - start) + (n + (start + d.length - (lo + n))) := by omega
      rw [e1, window_split, window_split, show start + (lo - start) = lo by omega, List.append_assoc]
      congr 3
      omega
    have w1 : window s.data start (lo - start) = window bytes start (lo - start) :=
      window_of_same fun p h1 h2 => hsame p h1 (by omega) (by omega)
    have w2 : window s.data (lo + n) (start + d.length - (lo + n)) = window bytes (lo + n) (start + d.length - (lo + n)) :=
      window_of_same fun p h1 h2 => hsame p (by omega) (by omega) (by omega)
    have l1 := window_length (data := bytes) (off := lo) (n := n) (by omega)
    have l2 := window_length (data := s.data) (off := lo) (n := n) (by omega)
    have hne : window s.data lo n ≠ window bytes lo n := by
      intro hw
      obtain ⟨p, p1, p2, p3⟩ := hdiff
      refine p3 ?_
      have := congrArg (fun w => w[p - lo]?) hw
      simp only [window_getElem?] at this
      rw [if_pos (by omega), if_pos (by omega), show lo + (p - lo) = p by omega] at this
      exact this
    have hdd := hsplit bytes
    rw [hd] at hdd
    have hb := C24_burst_detected C chunk hc (window bytes start (lo - start)) (window bytes lo n) (window s.data lo n)
      (window bytes (lo + n) (start + d.length - (lo + n))) (l2.trans l1.symm) (by omega) hne
      ((seekToDataOffset e (s.on bytes)).2.on s.data) e.entry.compressedSize.toNat (by
        show window s.data (seekToDataOffset e (s.on bytes)).2.pos _ = _
        rw [h3, hsize, hsplit, w1, w2])
    rw [← hdd, ← hcrc, ← hm] at hb
    rcases hb with hb | hb
    all_goals
      cases hq : (EntryReader.new e.entry.compression e.entry.compressedSize.toNat).readToEndChecked C chunk e.entry.crc32
          ((seekToDataOffset e (s.on bytes)).2.on s.data) with
      | mk q s2 =>
        rw [hq] at hb
        cases q with
        | ok u => first | exact absurd hb not_interrupted_ok | cases hb
        | error y =>
          rw [bind_of_error hq]
          first | exact Or.inl (interrupted_cast hb) | (cases hb; exact Or.inr rfl)

/-- C70. An archive (of any program, as in C42) is damaged somewhere before its directory. Then it still opens with the same
listing; every entry whose record is intact still reads back its data; and no entry at all reads back, with the check, anything
whose checksum differs from that of its data. Damage within one record thus leaves all other entries as they were, because the
records do not overlap (`Tiled`). -/
theorem C70_contained_partial (C : Codec) (hC : Lawful C) (sink sink' : Sink) (zw : ZipWriter) (h : Created sink zw)
    (hs : sink.bytes = []) (ops : List Op) (evs : List Ev) (hc : (runArchive C zw ops evs).2.1 = .ok sink')
    (hleg : Legible ops (runArchive C zw ops evs).1 (runArchive C zw ops evs).2.2.isZip64 sink'.bytes)
    (hsmall : sink'.bytes.length ≤ 0xFFFFFFFF ∨
      ∀ ls, Program C ops (runArchive C zw ops evs).1 ls → ∀ l ∈ ls, l.us ≠ 0xFFFFFFFF ∧ l.cs ≠ 0xFFFFFFFF)
    (hx : zw.forceNoZip64 = true → ∀ op ∈ ops, ¬ Exchanged op)
    (ds : List Bytes) (hds : DataIn C ops (runArchive C zw ops evs).1 ds) (hne : ds ≠ [])
    (b : Build) (hb : ds.length ≤ b.maxVecEntries) :
    ∃ (f : ZipFile) (ls : List Listing) (offs : List Nat) (dir : Nat), Program C ops (runArchive C zw ops evs).1 ls ∧
      ls.length = ds.length ∧ Tiled sink'.bytes (∀ r ∈ (runArchive C zw ops evs).1, Fine r) 0 (ls.zip offs) dir ∧
      List.Forall₂ (fun off (e : StoredZipEntry) => e.fileOffset = off) offs f.entries ∧ f.entries.length = ds.length ∧
      (∀ s : RState, s.data = sink'.bytes → Interrupted (openFile b s).1 ∨ (openFile b s).1 = .ok f) ∧
      ∀ x : Bytes, x.length = sink'.bytes.length → (∀ p, dir ≤ p → x[p]? = sink'.bytes[p]?) →
        (∀ s : RState, s.data = x → Interrupted (openFile b s).1 ∨ (openFile b s).1 = .ok f) ∧
        ∀ i l off d, ls[i]? = some l → offs[i]? = some off → ds[i]? = some d → ∀ chunk, 0 < chunk →
          ∀ s : RState, s.data = x →
            ((∀ p, off ≤ p → p < recordEnd sink'.bytes off l → x[p]? = sink'.bytes[p]?) →
              Interrupted (checkedRead C f i chunk s).1 ∨ (checkedRead C f i chunk s).1 = .ok d) ∧
            (∀ y, (checkedRead C f i chunk s).1 = .ok y → crc32 y = crc32 d) ∧
            (l.entry.compression = .stored → ∀ lo n, n ≤ 4 → dataStart sink'.bytes off ≤ lo →
              lo + n ≤ dataStart sink'.bytes off + d.length →
              (∀ p, off ≤ p → p < recordEnd sink'.bytes off l → p < lo ∨ lo + n ≤ p → x[p]? = sink'.bytes[p]?) →
              (∃ p, lo ≤ p ∧ p < lo + n ∧ x[p]? ≠ sink'.bytes[p]?) →
              Interrupted (checkedRead C f i chunk s).1 ∨ (checkedRead C f i chunk s).1 = .error (.err .crc32CheckError)) := by
  obtain ⟨out, ps, offs, cd, z, fin⟩ := finished h hs hc (J := ¬ ∀ r ∈ (runArchive C zw ops evs).1, Fine r)
    (Classical.em _).symm
  have hcon := Program.data hC fin.program hds
  rw [List.forall₂_map_left_iff] at hcon
  have hl : ps.length = ds.length := hcon.length_eq
  have hno := fun p hp => own_noZip64 (fin.own hleg.own p hp)
  obtain ⟨f, h1, h2, h3, h4⟩ := fin.shown (b := b) h hleg (fin.noClash hsmall) (by rw [hl]; exact hb)
  have hps : ps ≠ [] := fun hp => by
    rw [hp] at hl
    exact hne (List.length_eq_zero_iff.1 hl.symm)
  have htile := fin.laid.tiled (y := cd ++ endBytes z ps.length cd.length out.length (commentBytes (finalComment none ops))) hno
  rw [Classical.not_not] at htile
  have hbytes : sink'.bytes = out ++ (cd ++ endBytes z ps.length cd.length out.length (commentBytes (finalComment none ops))) := fin.bytes
  rw [← hbytes] at htile
  refine ⟨f, ps.map Prod.fst, offs, out.length, fin.program, by rw [List.length_map, hl], htile, ?_, ?_, h1,
    fun x hxl hxd => ⟨fun s hsx => ?_, ?_⟩⟩
  · refine List.forall₂_iff_get.2 ⟨?_, fun i hi hi' => ?_⟩
    · rw [← h2.length_eq, List.length_zip, fin.placed.length_eq, Nat.min_self]
    · have hip : i < ps.length := by rw [fin.placed.length_eq]; exact hi
      have k2 := (List.forall₂_iff_get.1 h2).2 i (by rw [List.length_zip]; omega) hi'
      rw [List.get_eq_getElem, List.getElem_zip] at k2
      exact k2.readAs.offset
  · rw [← h2.length_eq, List.length_zip, ← fin.placed.length_eq, Nat.min_self, hl]
  · have hout : out.length = (x.take out.length).length := by
      rw [List.length_take, hxl, hbytes, List.length_append]; omega
    refine fin.reopens h hleg (by rw [hl]; exact hb) hps h2 h3 h4 hout s ?_
    have hdrop : x.drop out.length = cd ++ endBytes z ps.length cd.length out.length (commentBytes (finalComment none ops)) := by
      rw [drop_of_same hxd, hbytes, List.drop_left]
    rw [hsx, ← hdrop, List.take_append_drop]
  · intro i l off d hli hoi hdi chunk hch s hsx
    rw [List.getElem?_map] at hli
    cases hp : ps[i]? with
    | none => rw [hp] at hli; cases hli
    | some p =>
      rw [hp] at hli
      cases hli
      obtain ⟨off', ho', a, y, rest, hout, hal, g⟩ := forall₂_get' fin.placed hp
      obtain rfl : off = off' := by rw [hoi] at ho'; cases ho'; rfl
      obtain ⟨e, he, hsh⟩ := forall₂_get' h2 (i := i) (a := (p, off)) (by
        rw [List.getElem?_zip_eq_some]; exact ⟨hp, hoi⟩)
      have hmem := List.mem_of_getElem? hp
      obtain ⟨d', hd', hcd⟩ := forall₂_get' hcon hp
      obtain rfl : d = d' := by rw [hdi] at hd'; cases hd'; rfl
      have hfull : sink'.bytes = a ++ (y ++ (rest ++ (cd ++ endBytes z ps.length cd.length out.length
          (commentBytes (finalComment none ops))))) := by
        rw [hbytes, hout]; simp only [List.append_assoc]
      refine ⟨fun hsame => ?_, fun y' hy => ?_, fun hm lo n hn hlo hhi hsame hdiff => ?_⟩
      · rw [g.recordEnd (hno p hmem) hfull hal] at hsame
        have hw := window_of_same hsame
        have hwy : window sink'.bytes off y.length = y := by
          unfold window
          rw [hfull, ← hal, List.drop_left, List.take_left]
        rw [hwy] at hw
        have hsplit : x = x.take off ++ (y ++ x.drop (off + y.length)) := by
          have h1 := List.take_append_drop y.length (x.drop off)
          rw [show (x.drop off).take y.length = y from hw, List.drop_drop] at h1
          rw [h1, List.take_append_drop]
        refine g.checked (a := x.take off) (x := y) (rest := x.drop (off + y.length)) (fin.own hleg.own p hmem) hsplit ?_ hsh.readAs ?_ ?_
          he hch hcd.2 hcd.1.symm s hsx
        · rw [List.length_take, hxl, hfull, List.length_append]; omega
        · obtain ⟨op, ho, r, ha⟩ := Program.calls fin.program p.1 (List.mem_map_of_mem hmem)
          rw [Asked.recorded (fun hf => hx hf op ho) ha]
        · rw [hxl]; exact hleg.size
      · cases hr : checkedRead C f i chunk s with
        | mk r s' =>
          rw [hr] at hy
          cases hy
          rw [checkedRead_matches he hch hr, hsh.readAs.crc, hcd.1]
      · obtain ⟨op, hop, r, ha⟩ := Program.calls fin.program p.1 (List.mem_map_of_mem hmem)
        have hrec : (p.1.recorded zw.forceNoZip64).2 = p.1.cs := by
          rw [Asked.recorded (fun hf => hx hf op hop) ha]
        have hstored : p.1.stored = d := by
          rcases hcd.2 with ⟨_, h⟩ | ⟨h, _⟩
          · exact h
          · exact absurd hm h
        obtain ⟨start, hrun, hdrop, hst⟩ := g.seek (e := e) (fin.own hleg.own p hmem) hfull hal hsh.readAs.offset s.pos
        have hend := g.recordEnd (hno p hmem) hfull hal
        unfold recordEnd at hsame hend
        rw [← hst] at hlo hhi hsame hend
        have hle : start + d.length ≤ sink'.bytes.length := by
          have := congrArg List.length hdrop
          rw [List.length_drop, List.length_append, hstored] at this
          by_cases hz : start ≤ sink'.bytes.length
          · omega
          · have : d.length = 0 := by omega
            have : n = 0 := by omega
            obtain ⟨p, p1, p2, _⟩ := hdiff
            omega
        have hstart : off + 30 ≤ start := by rw [hst]; unfold dataStart; omega
        refine checkedRead_burst (start := start) (bytes := sink'.bytes) (d := d) he (hsh.readAs.method.trans hm) ?_
          (hsh.readAs.crc.trans hcd.1) hch hrun ?_ hle (by rw [hsx, hxl]) ?_ hn hlo hhi (fun p p1 p2 p3 => ?_) ?_
        · rw [hsh.readAs.cs, hrec, Listing.cs, UInt64.toNat_ofNat', hstored]
          have := hleg.size
          omega
        · rw [← hstored]
          exact take_of_drop hdrop rfl
        · rw [hsx, hsh.readAs.offset]
          exact (window_of_same fun p p1 p2 => hsame p p1 (by omega) (Or.inl (by omega))).symm
        · rw [hsx]
          exact hsame p (by omega) (by rw [hstored]; omega) p3
        · rw [hsx]; exact hdiff

theorem Tiled.stop_le {data : Bytes} {tight : Prop} {pos stop : Nat} {q : List (Listing × Nat)} (h : Tiled data tight pos q stop) :
    pos ≤ stop := by
  induction h with
  | nil h _ => exact h
  | @cons pos off stop l rest h _ _ _ ih =>
    refine Nat.le_trans (Nat.le_trans h ?_) ih
    unfold recordEnd dataStart
    omega

theorem Tiled.within {data : Bytes} {tight : Prop} {pos stop : Nat} {q : List (Listing × Nat)} (h : Tiled data tight pos q stop) :
    ∀ {i : Nat} {l : Listing} {off : Nat}, q[i]? = some (l, off) → pos ≤ off ∧ recordEnd data off l ≤ stop := by
  induction h with
  | nil _ _ => intro i l off hi; simp at hi
  | @cons pos off stop l rest h _ _ hs ih =>
    intro i l' off' hi
    cases i with
    | zero => cases hi; exact ⟨h, Tiled.stop_le hs⟩
    | succ i =>
      rw [List.getElem?_cons_succ] at hi
      obtain ⟨h1, h2⟩ := ih hi
      refine ⟨Nat.le_trans (Nat.le_trans h ?_) h1, h2⟩
      unfold recordEnd dataStart
      omega

theorem Tiled.apart {data : Bytes} {tight : Prop} {pos stop : Nat} {q : List (Listing × Nat)} (h : Tiled data tight pos q stop) :
    ∀ {i j : Nat} {l l' : Listing} {off off' : Nat}, q[i]? = some (l, off) → q[j]? = some (l', off') → i ≠ j →
      recordEnd data off l ≤ off' ∨ recordEnd data off' l' ≤ off := by
  induction h with
  | nil _ _ => intro i j l l' off off' hi; simp at hi
  | @cons pos off stop l rest h _ _ hs ih =>
    intro i j l1 l2 o1 o2 hi hj hij
    cases i with
    | zero =>
      cases j with
      | zero => exact absurd rfl hij
      | succ j =>
        cases hi
        exact Or.inl (Tiled.within hs (by simpa using hj)).1
    | succ i =>
      cases j with
      | zero =>
        cases hj
        exact Or.inr (Tiled.within hs (by simpa using hi)).1
      | succ j => exact ih (by simpa using hi) (by simpa using hj) (by omega)

/-- C70, in the words of the claim: damage within the record of one entry. The archive opens with the same listing, and every
other entry reads back its data. -/
theorem C70_others_partial (C : Codec) (hC : Lawful C) (sink sink' : Sink) (zw : ZipWriter) (h : Created sink zw)
    (hs : sink.bytes = []) (ops : List Op) (evs : List Ev) (hc : (runArchive C zw ops evs).2.1 = .ok sink')
    (hleg : Legible ops (runArchive C zw ops evs).1 (runArchive C zw ops evs).2.2.isZip64 sink'.bytes)
    (hsmall : sink'.bytes.length ≤ 0xFFFFFFFF ∨
      ∀ ls, Program C ops (runArchive C zw ops evs).1 ls → ∀ l ∈ ls, l.us ≠ 0xFFFFFFFF ∧ l.cs ≠ 0xFFFFFFFF)
    (hx : zw.forceNoZip64 = true → ∀ op ∈ ops, ¬ Exchanged op)
    (ds : List Bytes) (hds : DataIn C ops (runArchive C zw ops evs).1 ds) (hne : ds ≠ [])
    (b : Build) (hb : ds.length ≤ b.maxVecEntries) :
    ∃ (f : ZipFile) (ls : List Listing), Program C ops (runArchive C zw ops evs).1 ls ∧ f.entries.length = ds.length ∧
      (∀ s : RState, s.data = sink'.bytes → Interrupted (openFile b s).1 ∨ (openFile b s).1 = .ok f) ∧
      ∀ (i : Nat) (l : Listing) (e : StoredZipEntry), ls[i]? = some l → f.entries[i]? = some e →
        ∀ x : Bytes, x.length = sink'.bytes.length →
          (∀ p, p < e.fileOffset ∨ recordEnd sink'.bytes e.fileOffset l ≤ p → x[p]? = sink'.bytes[p]?) →
          (∀ s : RState, s.data = x → Interrupted (openFile b s).1 ∨ (openFile b s).1 = .ok f) ∧
          ∀ j d, j ≠ i → ds[j]? = some d → ∀ chunk, 0 < chunk → ∀ s : RState, s.data = x →
            Interrupted (checkedRead C f j chunk s).1 ∨ (checkedRead C f j chunk s).1 = .ok d := by
  obtain ⟨f, ls, offs, dir, h1, h2, h3, h4, h5, h6, h7⟩ :=
    C70_contained_partial C hC sink sink' zw h hs ops evs hc hleg hsmall hx ds hds hne b hb
  refine ⟨f, ls, h1, h5, h6, fun i l e hl he x hxl hxs => ?_⟩
  have hlen : offs.length = ls.length := by rw [h4.length_eq, h5, h2]
  have get : ∀ k, k < ls.length → ∃ l off, ls[k]? = some l ∧ offs[k]? = some off ∧ (ls.zip offs)[k]? = some (l, off) := fun k hk =>
    ⟨ls[k], offs[k]'(by omega), by rw [List.getElem?_eq_getElem hk], by rw [List.getElem?_eq_getElem (by omega)], by
      rw [List.getElem?_zip_eq_some]
      exact ⟨List.getElem?_eq_getElem hk, List.getElem?_eq_getElem (by omega)⟩⟩
  obtain ⟨l', off, k1, k2, k3⟩ := get i (List.getElem?_eq_some_iff.1 hl).1
  obtain rfl : l = l' := by rw [hl] at k1; cases k1; rfl
  obtain ⟨e', he', hoff⟩ := forall₂_get' h4 k2
  obtain rfl : e = e' := by rw [he] at he'; cases he'; rfl
  rw [hoff] at hxs
  obtain ⟨h8, h9⟩ := h7 x hxl fun p hp => hxs p (Or.inr (Nat.le_trans (Tiled.within h3 k3).2 hp))
  refine ⟨h8, fun j d hj hd chunk hch s hsx => ?_⟩
  obtain ⟨lj, offj, m1, m2, m3⟩ := get j (by rw [h2]; exact (List.getElem?_eq_some_iff.1 hd).1)
  refine (h9 j lj offj d m1 m2 hd chunk hch s hsx).1 fun p p1 p2 => hxs p ?_
  rcases Tiled.apart h3 k3 m3 (Ne.symm hj) with q | q
  · exact Or.inr (by omega)
  · exact Or.inl (by omega)

theorem three_of_length {α : Type} : ∀ {l : List α}, l.length = 3 → ∃ a b c, l = [a, b, c]
  | [a, b, c], _ => ⟨a, b, c, rfl⟩

/-- C70, concretely: a byte of the data of the first of three entries is changed. The archive opens as before and the other two
entries, one of them streamed, are read as before; reading the first with the check gives a checksum error. -/
example (b : Build) (hb : 3 ≤ b.maxVecEntries) (v : UInt8) (hv : v ≠ 104) : ∃ f : ZipFile, f.entries.length = 3 ∧
    (∀ s : RState, s.data = Samples.tourBytes → Interrupted (openFile b s).1 ∨ (openFile b s).1 = .ok f) ∧
    ∀ s : RState, s.data = Samples.tourBytes.set 33 v → (Interrupted (openFile b s).1 ∨ (openFile b s).1 = .ok f) ∧
      (Interrupted (checkedRead Samples.markCodec f 0 9 s).1 ∨
        (checkedRead Samples.markCodec f 0 9 s).1 = .error (.err .crc32CheckError)) ∧
      (Interrupted (checkedRead Samples.markCodec f 1 9 s).1 ∨ (checkedRead Samples.markCodec f 1 9 s).1 = .ok [7, 8, 9]) ∧
      (Interrupted (checkedRead Samples.markCodec f 2 9 s).1 ∨ (checkedRead Samples.markCodec f 2 9 s).1 = .ok [5]) := by
  have hr := Samples.tour_archive.1
  obtain ⟨f, ls, offs, dir, h1, h2, h3, h4, h5, h6, h7⟩ := C70_contained_partial Samples.markCodec Samples.markCodec_lawful ⟨[], 0, 0⟩
    ⟨Samples.tourBytes, 1, 0⟩ Samples.fresh .new rfl Samples.tour Samples.eager Samples.tour_archive.2 Samples.tour_legible
    (Or.inl (by decide +kernel)) (fun h => by cases h) [[104, 105], [7, 8, 9], [5]] (by rw [hr]; exact Samples.tour_data) (by simp) b hb
  rw [hr] at h1 h3
  refine ⟨f, h5, h6, fun s hs => ?_⟩
  have hfine : ∀ r ∈ [OpResult.whole (.ok ()), .comment, .stream (.ok ()) [.ok 3, .ok 0] (some (.ok ())), .whole (.ok ())], Fine r := by
    simp only [List.forall_mem_cons]
    exact ⟨Or.inl rfl, trivial, Or.inl rfl, Or.inl rfl, fun _ h => by cases h⟩
  obtain ⟨l0, l1, l2, rfl⟩ := three_of_length h2
  obtain ⟨o0, o1, o2, rfl⟩ := three_of_length (h4.length_eq.trans h5)
  have hm : l0.entry.compression = .stored ∧ recordEnd Samples.tourBytes 0 l0 = 35 := by
    cases h1 with
    | other hn _ => exact absurd (Or.inl rfl) hn
    | listed ha _ =>
      cases ha with
      | whole _ _ _ _ stored _ hst =>
        rcases hst with ⟨_, rfl⟩ | ⟨hn, _⟩
        · exact ⟨rfl, by unfold recordEnd; decide +kernel⟩
        · exact absurd rfl hn
  have h3' : Tiled Samples.tourBytes _ 0 [(l0, o0), (l1, o1), (l2, o2)] dir := h3
  have ho : o0 = 0 := by
    cases h3' with
    | cons _ t _ _ => exact (t hfine).symm
  subst ho
  have hdir := (Tiled.within h3' (i := 0) rfl).2
  rw [hm.2] at hdir
  have a1 := Tiled.apart h3' (i := 0) (j := 1) rfl rfl (by omega)
  have a2 := Tiled.apart h3' (i := 0) (j := 2) rfl rfl (by omega)
  have r1 : o1 + 30 ≤ recordEnd Samples.tourBytes o1 l1 := by unfold recordEnd dataStart; omega
  have r2 : o2 + 30 ≤ recordEnd Samples.tourBytes o2 l2 := by unfold recordEnd dataStart; omega
  rw [hm.2] at a1 a2
  have hset : ∀ p, p ≠ 33 → (Samples.tourBytes.set 33 v)[p]? = Samples.tourBytes[p]? := fun p hp =>
    List.getElem?_set_ne (Ne.symm hp)
  obtain ⟨h8, h9⟩ := h7 (Samples.tourBytes.set 33 v) (List.length_set ..) fun p hp => hset p (by omega)
  refine ⟨h8 s hs, ?_, ?_, ?_⟩
  · refine (h9 0 l0 0 _ rfl rfl rfl 9 (by omega) s hs).2.2 hm.1 33 1 (by omega) (by decide +kernel) (by decide +kernel)
      (fun p _ _ hp => hset p (by omega)) ⟨33, Nat.le_refl _, by omega, ?_⟩
    rw [List.getElem?_set_self (by decide +kernel), show Samples.tourBytes[33]? = some 104 by decide +kernel]
    exact fun hx => hv (Option.some.inj hx)
  · exact (h9 1 l1 o1 _ rfl rfl rfl 9 (by omega) s hs).1 fun p _ _ => hset p (by omega)
  · exact (h9 2 l2 o2 _ rfl rfl rfl 9 (by omega) s hs).1 fun p _ _ => hset p (by omega)

end AsyncZip
