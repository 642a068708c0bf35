import Verif.Proofs.WriteHistory
/-!
# A listed streamed entry is described by its directory record and present in the output
-/

namespace AsyncZip
open Wr Spec

theorem streamLfh_names {e : ZipEntry} (force : Bool) : (streamEntry force e).filename = e.filename ∧
    (streamEntry force e).comment = e.comment ∧ (streamEntry force e).compression = e.compression ∧
    (streamEntry force e).lastModificationDate = e.lastModificationDate ∧
    (streamEntry force e).internalFileAttribute = e.internalFileAttribute ∧
    (streamEntry force e).externalFileAttribute = e.externalFileAttribute ∧
    (streamEntry force e).crc32 = e.crc32 ∧ (streamEntry force e).uncompressedSize = e.uncompressedSize :=
  ⟨rfl, rfl, rfl, rfl, rfl, rfl, rfl, rfl⟩

theorem put_flush_bytes (zw : ZipWriter) (x : Bytes) (k : Nat) :
    ((zw.put x).addFlushes k).writer.offset = zw.writer.offset + x.length := rfl

theorem put_three (z : ZipWriter) (a b d : Bytes) (k : Nat) :
    (((z.put a).put b).addFlushes k).put d = (z.put (a ++ (b ++ d))).addFlushes k := by
  simp [ZipWriter.put, ZipWriter.addFlushes, Nat.add_assoc]

theorem localBytes_append (h : LocalFileHeader) (n x d : Bytes) : localBytes h n x [] ++ d = localBytes h n x d := by
  simp only [localBytes, List.append_assoc, List.nil_append]

theorem encFromRaw_ok {C : Codec} {c : Compression} {pre : Bool} {enc : Option (EncState C)} (h : encFromRaw C c pre = .ok enc) :
    (enc = none ∧ (pre = true ∨ c = .stored)) ∨
    (enc = some ⟨C.start c .default, [], false⟩ ∧ pre = false ∧ c ≠ .stored ∧ c ≠ .deflate64) := by
  unfold encFromRaw at h
  split at h
  · rename_i hp
    cases h
    exact Or.inl ⟨rfl, Or.inl hp⟩
  · rename_i hp
    split at h
    · cases h; exact Or.inl ⟨rfl, Or.inr rfl⟩
    · cases h
    · rename_i h1 h2
      cases h
      exact Or.inr ⟨rfl, by simpa using hp, h1, h2⟩

theorem stream_step {C : Codec} {zw zw' : ZipWriter} {e : ZipEntry} {pre : Bool} {evs evs' : List Ev}
    {acts : List StreamAct} {s t : WSt} {st st' : EntryStream C} {rs : List (Res Nat)} {r : Res Unit}
    (h : openStream C e pre ⟨zw, evs⟩ = (.ok st, s)) (h1 : runActs s.zw st acts = (rs, zw', st'))
    (h2 : closeStream st' ⟨zw', evs'⟩ = (r, t)) (hl : Listed r) :
    ∃ l c x, Asked C (.stream e pre evs acts (.close evs')) (.stream (.ok ()) rs (some r)) l ∧
      t.zw = pushed c ((({ zw with isZip64 := zw.isZip64 || !zw.forceNoZip64 } : ZipWriter).put x).addFlushes
        (flushCount acts rs)) ∧
      Describes zw.forceNoZip64 zw.writer.offset l c ∧ LocalRec zw.forceNoZip64 x l c ∧
      extraCountBytes c.entry.extraFields < 2 ^ 16 ∧
      (zw.forceNoZip64 = true → l.us ≤ 0xFFFFFFFF ∧ l.cs ≤ 0xFFFFFFFF ∧ zw.writer.offset ≤ 0xFFFFFFFF) := by
  obtain ⟨lfh, extra, enc, o1, o2, o3, o4, o5, o6⟩ := openStream_ok h
  simp only at o1 o2 o4 o5 o6
  obtain ⟨rs', zw1, st1, em, fed, a1, a2, a3, a4⟩ := runActs_spec acts s.zw st
  rw [h1] at a1
  simp only [Prod.mk.injEq] at a1
  obtain ⟨rfl, rfl, rfl⟩ := a1
  obtain ⟨a5, enc', a6, a7⟩ := a3
  obtain ⟨e2, hd, cs, us, off, cdh, c1, c2, c3⟩ := closeStream_listed h2 hl
  simp only at c1 c3
  -- the stored bytes
  let stored := em ++ encTail enc'
  have hst' : st' = { st with hasher := st.hasher.update (accepted acts rs), written := st.written + (accepted acts rs).length, enc := enc' } := a6
  have henc : st'.enc = enc' := by rw [a6]
  rw [henc] at c1 c3
  have hzw' : zw'.writer.offset = s.zw.writer.offset + em.length := by rw [a5]; rfl
  have hforce : zw'.forceNoZip64 = zw.forceNoZip64 := by rw [a5, o4]; rfl
  have hdo : st'.dataOffset = s.zw.writer.offset := by rw [a6, o5]
  have hlo : st'.lfhOffset = zw.writer.offset := by rw [a6, o5]
  have hlf : st'.lfh = lfh := by rw [a6, o5]
  have hlen : zw'.writer.offset + (encTail enc').length - st'.dataOffset = stored.length := by
    rw [hzw', hdo, List.length_append]; omega
  rw [hlen, hforce, hlo, hlf] at c1
  -- the final entry
  have hfe : st'.finalEntry = if pre then streamEntry zw.forceNoZip64 e else
      { streamEntry zw.forceNoZip64 e with
        crc32 := crc32 (accepted acts rs), uncompressedSize := UInt64.ofNat (accepted acts rs).length } := by
    unfold EntryStream.finalEntry
    rw [a6, o5]
    simp [crc32]
  let l : Listing := ⟨e, true, st'.finalEntry.crc32, st'.finalEntry.uncompressedSize, stored⟩
  have hcs : l.cs = UInt64.ofNat stored.length := rfl
  obtain ⟨w1, w2, w3, w4, w5, w6, w7, w8, w9, w10⟩ := streamLfh_ok o1
  have hfn : st'.finalEntry.filename = e.filename := by rw [hfe]; split <;> rfl
  have hfc : st'.finalEntry.comment = e.comment := by rw [hfe]; split <;> rfl
  have hfi : st'.finalEntry.internalFileAttribute = e.internalFileAttribute := by rw [hfe]; split <;> rfl
  have hfx : st'.finalEntry.externalFileAttribute = e.externalFileAttribute := by rw [hfe]; split <;> rfl
  have hff : st'.finalEntry.extraFields = (streamEntry zw.forceNoZip64 e).extraFields := by rw [hfe]; split <;> rfl
  -- what was asked
  have hasked : Asked C (.stream e pre evs acts (.close evs')) (.stream (.ok ()) rs (some r)) l := by
    have hse : st.enc = enc := by rw [o5]
    rw [hse] at a7
    rcases encFromRaw_ok o3 with ⟨rfl, hp⟩ | ⟨rfl, rfl, p2, p3⟩
    · simp only at a7
      obtain ⟨rfl, rfl⟩ := a7
      have hstored : stored = accepted acts rs := by simp [stored, encTail]
      cases pre with
      | true =>
        have : l = ⟨e, true, e.crc32, e.uncompressedSize, accepted acts rs⟩ := by
          simp only [l, hfe, hstored]; rfl
        rw [this]
        exact .streamPre e evs evs' acts rs r hl
      | false =>
        have : l = ⟨e, true, crc32 (accepted acts rs), UInt64.ofNat (accepted acts rs).length, stored⟩ := by
          simp only [l, hfe]; rfl
        rw [this]
        refine .stream e evs evs' acts rs r (accepted acts rs) stored hl (Or.inl ⟨?_, hstored⟩) fun _ => rfl
        exact hp.resolve_left (by simp)
    · simp only at a7
      obtain ⟨s', rfl, b1⟩ := a7
      obtain ⟨o, b2, b3⟩ := b1.tail rfl
      have : l = ⟨e, true, crc32 (accepted acts rs), UInt64.ofNat (accepted acts rs).length, stored⟩ := by
        simp only [l, hfe]; rfl
      rw [this]
      refine .stream e evs evs' acts rs r fed stored hl (Or.inr ⟨p2, p3, o, s'.enc, b2, ?_⟩) fun hh => a4 (hh.resolve_left p2)
      simp only [stored, encTail]
      rw [b3]; rfl
  -- the writer afterwards
  have hz : t.zw = pushed ⟨cdh, e2⟩ ((({ zw with isZip64 := zw.isZip64 || !zw.forceNoZip64 } : ZipWriter).put
      (localBytes lfh e.filename.basic extra (stored ++ descriptorBytes e2.crc32 cs us))).addFlushes (flushCount acts rs)) := by
    rw [c3, a5, o4, put_three, localBytes_append, show stored = em ++ encTail enc' from rfl, List.append_assoc]
  -- the record
  unfold streamCdh at c2
  obtain ⟨nc, c4, c5⟩ := bind_ok c2
  have c4 := tryU16_ok c4
  simp only [res_pure, Except.ok.injEq] at c5
  have hl3 : l.entry = e := rfl
  unfold streamSizes at c1
  split at c1
  · rename_i hfo
    split at c1
    · cases c1
    rename_i hsz
    simp only [Except.ok.injEq, Prod.mk.injEq] at c1
    obtain ⟨k1, k2, k3, k4, k5⟩ := c1
    subst k1 k2
    have hrec : l.recorded zw.forceNoZip64 = (l.cs, l.us) := by
      rw [hfo]; rfl
    have hsm : l.us ≤ 0xFFFFFFFF ∧ l.cs ≤ 0xFFFFFFFF ∧ zw.writer.offset ≤ 0xFFFFFFFF := by
      refine ⟨?_, ?_, by omega⟩
      · rw [UInt64.le_iff_toNat_le]
        simp only [UInt64.reduceToNat, l]
        omega
      · rw [hcs, UInt64.le_iff_toNat_le, UInt64.toNat_ofNat']
        simp only [UInt64.reduceToNat]
        omega
    rw [hfc] at c4
    refine ⟨l, ⟨cdh, st'.finalEntry⟩, _, hasked, hz, ?_, ?_, ?_, fun _ => hsm⟩
    · constructor
      · exact hfn
      · exact hfc
      · rw [← c5]; exact w1
      · rw [← c5]; exact c4
      · rw [← c5]; simp only; rw [hff]; exact w2
      · rw [← c5]
      · rw [← c5]; exact w3
      · rw [← c5]; exact w4
      · rw [← c5]; exact w5
      · rw [← c5]; exact w6
      · rw [← c5]; exact w7
      · rw [← c5]
      · rw [← c5]
      · rw [← c5]; exact hfi
      · rw [← c5]; exact hfx
      · rw [hrec]
        have hfs : st'.finalEntry.extraFields = withUnicode e e.extraFields := by
          rw [hff, hfo]; rfl
        simp only
        rw [hfs]
        refine .plain (fun _ => hfo) hsm.2.1 hsm.1 hsm.2.2 ?_ ?_ ?_
        · rw [← c5, ← k4, hcs, toUInt32_ofNat]
        · rw [← c5, ← k3]
        · rw [← c5, ← k5]
    · refine ⟨lfh, (streamEntry zw.forceNoZip64 e).extraFields, extra, ?_, o2, ?_⟩
      · constructor
        · exact w1
        · exact w2
        · rw [← c5]
        · rw [← c5]
        · rw [← c5]
        · rw [← c5]
        · rw [← c5]
        · intro hh; cases hh
        · intro _; exact ⟨w8, by rw [w9, w10], rfl⟩
      · rw [← k3, ← k4]
        simp only [tailBytes, l, hfo, if_true]
        rw [show (Listing.cs _) = UInt64.ofNat stored.length from rfl, toUInt32_ofNat]
    · simp only
      rw [hff]
      have := UInt16.toNat_lt lfh.extraFieldLength
      omega
  · rename_i hfo
    have hfo : zw.forceNoZip64 = false := by simpa using hfo
    obtain ⟨n, k0, k1⟩ := bind_ok c1
    have k0 := tryU16_ok k0
    simp only [res_pure, Except.ok.injEq, Prod.mk.injEq] at k1
    obtain ⟨k1, k2, k3, k4, k5⟩ := k1
    have hrec : l.recorded zw.forceNoZip64 = (l.us, l.cs) := by rw [hfo]; rfl
    subst k1 k2
    simp only [] at c4
    rw [hfc] at c4
    refine ⟨l, ⟨cdh, _⟩, _, hasked, hz, ?_, ?_, ?_, fun h => absurd (h.symm.trans hfo) (by simp)⟩
    · constructor
      · exact hfn
      · exact hfc
      · rw [← c5]; exact w1
      · rw [← c5]; exact c4
      · rw [← c5]; exact k0
      · rw [← c5]
      · rw [← c5]; exact w3
      · rw [← c5]; exact w4
      · rw [← c5]; exact w5
      · rw [← c5]; exact w6
      · rw [← c5]; exact w7
      · rw [← c5]
      · rw [← c5]
      · rw [← c5]; exact hfi
      · rw [← c5]; exact hfx
      · rw [hrec]
        simp only
        rw [hff, hfo]
        refine .stream rfl rfl ?_ ?_ ?_
        · rw [← c5, ← k4]; rfl
        · rw [← c5, ← k3]; rfl
        · rw [← c5, ← k5]; rfl
    · refine ⟨lfh, (streamEntry zw.forceNoZip64 e).extraFields, extra, ?_, o2, ?_⟩
      · constructor
        · exact w1
        · exact w2
        · rw [← c5]
        · rw [← c5]
        · rw [← c5]
        · rw [← c5]
        · rw [← c5]
        · intro hh; cases hh
        · intro _; exact ⟨w8, by rw [w9, w10], rfl⟩
      · rw [← k3, ← k4]
        simp only [tailBytes, l, hfo, if_true]
        rfl
    · have := UInt16.toNat_lt n
      simp only
      omega

end AsyncZip
