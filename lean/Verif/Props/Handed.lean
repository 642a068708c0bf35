import Verif.Spec.Handed
import Verif.Props.Agree
/-!
# Data that the caller has compressed, as a whole or as a stream

C44.
-/

namespace AsyncZip
open Spec Rd

theorem Handed.asked {C : Codec} {op : Op} {r : OpResult} {l : Listing} {e : ZipEntry} {x : Bytes} (hw : Handed op r e x)
    (ha : Asked C op r l) : l.entry = e ∧ l.crc = e.crc32 ∧ l.us = e.uncompressedSize ∧ l.stored = x := by
  cases hw with
  | whole e x evs r => cases ha; exact ⟨rfl, rfl, rfl, rfl⟩
  | stream e evs evs' acts rs r => cases ha; exact ⟨rfl, rfl, rfl, rfl⟩

theorem Handed.data {C : Codec} {op : Op} {r : OpResult} {e : ZipEntry} {x d : Bytes} (hw : Handed op r e x)
    (h : StandsFor C e.compression x d) (hc : e.crc32 = crc32 d) : DataOf C op r d := by
  cases hw with
  | whole e x evs r => exact .wholePre _ _ _ _ _ h hc
  | stream e evs evs' acts rs r => exact .streamPre _ _ _ _ _ _ _ h hc

/-- C44 for data that the caller has compressed: two programs that hand over the same bytes for the same entry, as a whole or as a
stream in any split, have entries for it that agree in everything but the place and the extra fields, also in the compressed size, and
read back as whatever data the bytes stand for. Partial: as `C44_equivalent_partial`. -/
theorem C44_precompressed_partial (C : Codec) (hC : Lawful C) (sink sink' tink tink' : Sink) (zw vw : ZipWriter)
    (h : Created sink zw) (hs : sink.bytes = []) (h' : Created tink vw) (hs' : tink.bytes = [])
    (ops ops' : List Op) (evs evs' : List Ev) (hc : (runArchive C zw ops evs).2.1 = .ok sink')
    (hc' : (runArchive C vw ops' evs').2.1 = .ok tink')
    (hleg : Legible ops (runArchive C zw ops evs).1 (runArchive C zw ops evs).2.2.isZip64 sink'.bytes)
    (hleg' : Legible ops' (runArchive C vw ops' evs').1 (runArchive C vw ops' evs').2.2.isZip64 tink'.bytes)
    (hsmall : sink'.bytes.length ≤ 0xFFFFFFFF) (hsmall' : tink'.bytes.length ≤ 0xFFFFFFFF)
    (b : Build) (hb : (runArchive C zw ops evs).1.countP isListed ≤ b.maxVecEntries)
    (hb' : (runArchive C vw ops' evs').1.countP isListed ≤ b.maxVecEntries)
    (k k' : Nat) (op op' : Op) (r r' : OpResult) (x : ZipEntry) (p : Bytes)
    (hop : ops[k]? = some op) (hr : (runArchive C zw ops evs).1[k]? = some r) (hl : isListed r = true) (hw : Handed op r x p)
    (hop' : ops'[k']? = some op') (hr' : (runArchive C vw ops' evs').1[k']? = some r') (hl' : isListed r' = true)
    (hw' : Handed op' r' x p)
    (hx : zw.forceNoZip64 = true → ¬ Exchanged op) (hx' : vw.forceNoZip64 = true → ¬ Exchanged op') :
    ∃ (f f' : ZipFile) (i i' : Nat) (e e' : StoredZipEntry),
      (∀ s : RState, s.data = sink'.bytes → Interrupted (openFile b s).1 ∨ (openFile b s).1 = .ok f) ∧
      (∀ s : RState, s.data = tink'.bytes → Interrupted (openFile b s).1 ∨ (openFile b s).1 = .ok f') ∧
      f.entries[i]? = some e ∧ f'.entries[i']? = some e' ∧ SameEntry e e' ∧
      e.entry.compressedSize = UInt64.ofNat p.length ∧ e'.entry.compressedSize = UInt64.ofNat p.length ∧
      e.entry.uncompressedSize = x.uncompressedSize ∧ e.entry.crc32 = x.crc32 ∧
      ∀ d, StandsFor C x.compression p d → x.crc32 = crc32 d →
        (∀ chunk, 0 < chunk → ∀ s : RState, s.data = sink'.bytes →
          Interrupted (checkedRead C f i chunk s).1 ∨ (checkedRead C f i chunk s).1 = .ok d) ∧
        (∀ chunk, 0 < chunk → ∀ s : RState, s.data = tink'.bytes →
          Interrupted (checkedRead C f' i' chunk s).1 ∨ (checkedRead C f' i' chunk s).1 = .ok d) := by
  obtain ⟨f, h1, _, _, h3⟩ := listed_read hC h hs hc hleg (Or.inl hsmall) b hb
  obtain ⟨f', h1', _, _, h3'⟩ := listed_read hC h' hs' hc' hleg' (Or.inl hsmall') b hb'
  obtain ⟨l, off, e, g1, g2, g3, g4, g5, _, g6⟩ := h3 k op r hop hr hl
  obtain ⟨l', off', e', q1, q2, q3, q4, q5, _, q6⟩ := h3' k' op' r' hop' hr' hl'
  obtain ⟨w1, w2, w3, w4⟩ := Handed.asked hw g1
  obtain ⟨v1, v2, v3, v4⟩ := Handed.asked hw' q1
  have u := Asked.recorded hx g1
  have u' := Asked.recorded hx' q1
  have c : e.entry.compressedSize = UInt64.ofNat p.length := by rw [g3.cs, u, Listing.cs, w4]
  have c' : e'.entry.compressedSize = UInt64.ofNat p.length := by rw [q3.cs, u', Listing.cs, v4]
  refine ⟨f, f', _, _, e, e', h1, h1', g2, q2, ⟨?_, ?_, ?_, ?_, ?_, ?_, ?_, ?_, fun _ => c.trans c'.symm⟩, c, c', ?_, ?_,
    fun d hd hcrc => ⟨g6 hx d (Handed.data hw hd hcrc), q6 hx' d (Handed.data hw' hd hcrc)⟩⟩
  · rw [g4, q4, w1, v1]
  · rw [g5, q5, w1, v1]
  · rw [g3.method, q3.method, w1, v1]
  · rw [g3.date, q3.date, w1, v1]
  · rw [g3.internal, q3.internal, w1, v1]
  · rw [g3.external, q3.external, w1, v1]
  · rw [g3.crc, q3.crc, w2, v2]
  · rw [g3.us, q3.us, u, u', w3, v3]
  · rw [g3.us, u, w3]
  · rw [g3.crc, w2]

/-- C44 for the first two entries of one archive, of which one was handed over as a whole and the other as a stream. -/
example (b : Build) (hb : 3 ≤ b.maxVecEntries) : ∃ (f f' : ZipFile) (i i' : Nat) (e e' : StoredZipEntry),
    f.entries[i]? = some e ∧ f'.entries[i']? = some e' ∧ SameEntry e e' ∧ e.entry.compressedSize = 7 ∧
    e'.entry.compressedSize = 7 ∧ (∀ s : RState, s.data = Samples.readyBytes →
      Interrupted (checkedRead Samples.markCodec f' i' 9 s).1 ∨ (checkedRead Samples.markCodec f' i' 9 s).1 = .ok [7, 8, 9]) := by
  have hr := Samples.ready_archive.1
  obtain ⟨f, f', i, i', e, e', _, _, h1, h2, h3, h4, h5, _, _, h6⟩ := C44_precompressed_partial Samples.markCodec
    Samples.markCodec_lawful ⟨[], 0, 0⟩ ⟨Samples.readyBytes, 0, 0⟩ ⟨[], 0, 0⟩ ⟨Samples.readyBytes, 0, 0⟩ Samples.fresh Samples.fresh
    .new rfl .new rfl Samples.readyMade Samples.readyMade Samples.eager Samples.eager Samples.ready_archive.2 Samples.ready_archive.2
    Samples.ready_legible Samples.ready_legible (by decide +kernel) (by decide +kernel) b (by rw [hr]; exact hb) (by rw [hr]; exact hb)
    0 1 _ _ _ _ Samples.readyEntry [1, 7, 1, 8, 1, 9, 0] rfl (by rw [hr]; rfl) rfl (.whole _ _ _ _)
    rfl (by rw [hr]; rfl) rfl (.stream _ _ _ _ _ _) (fun h => by cases h) (fun h => by cases h)
  exact ⟨f, f', i, i', e, e', h1, h2, h3, h4, h5, (h6 [7, 8, 9] Samples.ready_stands (by decide +kernel)).2 9 (by decide)⟩

end AsyncZip
