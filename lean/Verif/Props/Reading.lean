import Verif.Proofs.Sessions
import Verif.Proofs.Stream
import Verif.Proofs.Samples
/-!
# C22-C27, C29-C31: reading entries, seekable, shared and streaming
-/

namespace AsyncZip
open Spec Rd

/-- A codec for the concrete examples: "compression" writes a length byte before the data. -/
def Samples.lengthCodec : Codec where
  Enc := Bytes
  start _ _ := []
  feed e b := (e ++ b, [])
  flush e := (e, [])
  finish e := UInt8.ofNat e.length :: e
  latePanics := true
  decode _ b :=
    match b with
    | [] => ⟨[], 0, false⟩
    | n :: r => if n.toNat ≤ r.length then ⟨r.take n.toNat, n.toNat + 1, true⟩ else ⟨r, r.length + 1, false⟩

/-! ## C22 -/

/-- C22. However an opened entry is read, what it delivers is a prefix of the entry's data, which is what follows the
entry's local header, `compressed_size` bytes clipped at the end of the source (decoded if the method is not Stored). -/
theorem C22_prefix (C : Codec) (f : ZipFile) (i : Nat) (s s1 s2 : RState) (er er' : EntryReader) (e : ZipEntry)
    (t : List Got) (ho : readerWithEntry f i s = (.ok (er, e), s1)) (hu : Use C er s1 t er' s2) :
    ∃ se, f.entries[i]? = some se ∧ e = se.entry ∧ OccursAt s.data sigLocal se.fileOffset ∧
      delivered t <+: (entryData C e.compression s.data (dataStart s.data se.fileOffset) e.compressedSize.toNat).out := by
  obtain ⟨se, hse, rfl, rfl, a1, a3, a4⟩ := readerWithEntry_ok ho
  obtain ⟨_, _, h3, _⟩ := use_spec hu
  rw [rest_new, a3, a4] at h3
  exact ⟨se, hse, rfl, a1, ⟨_, h3⟩⟩

/-- C22. For a Stored entry that is: a prefix of the `compressed_size` bytes after the local header. -/
theorem C22_stored (C : Codec) (f : ZipFile) (i : Nat) (s s1 s2 : RState) (er er' : EntryReader) (e : ZipEntry)
    (t : List Got) (ho : readerWithEntry f i s = (.ok (er, e), s1)) (hc : e.compression = .stored)
    (hu : Use C er s1 t er' s2) :
    ∃ se, f.entries[i]? = some se ∧ e = se.entry ∧
      delivered t <+: window s.data (dataStart s.data se.fileOffset) e.compressedSize.toNat := by
  obtain ⟨se, h1, h2, _, h3⟩ := C22_prefix C f i s s1 s2 er er' e t ho hu
  refine ⟨se, h1, h2, ?_⟩
  rw [entryData, if_pos hc] at h3
  exact h3

/-- C22. Zero bytes into a non-empty buffer mean that everything has been delivered. -/
theorem C22_zero_means_all (C : Codec) (f : ZipFile) (i : Nat) (s s1 s2 : RState) (er er' : EntryReader) (e : ZipEntry)
    (t u : List Got) (n : Nat) (hn : 0 < n) (ho : readerWithEntry f i s = (.ok (er, e), s1))
    (hu : Use C er s1 (t ++ .read n [] :: u) er' s2) :
    ∃ se, f.entries[i]? = some se ∧ e = se.entry ∧
      delivered t = (entryData C e.compression s.data (dataStart s.data se.fileOffset) e.compressedSize.toNat).out ∧
      (entryData C e.compression s.data (dataStart s.data se.fileOffset) e.compressedSize.toNat).ok = true := by
  obtain ⟨se, hse, rfl, rfl, a1, a3, a4⟩ := readerWithEntry_ok ho
  obtain ⟨er1, s3, u1, u2⟩ := Use.split hu
  obtain ⟨s0, er2, s4, b1, b2, b3, _⟩ := Use.head_read u2
  obtain ⟨_, _, h3, h4, _⟩ := use_spec u1
  obtain ⟨_, _, _, _, _, _, _, h5⟩ := read_ok b3
  obtain ⟨h6, h7, _⟩ := h5 hn rfl
  rw [rest_congr b1 b2] at h6 h7
  rw [rest_new, a3, a4] at h3 h4
  refine ⟨se, hse, rfl, ?_, ?_⟩
  · rw [← h3, h6, List.append_nil]
  · rw [← h4, h7]

/-- C22. Reading to the end delivers the entry's data exactly, under any schedule that does not interrupt it, unless the
decoder rejects it. -/
theorem C22_to_end (C : Codec) (f : ZipFile) (i chunk : Nat) (hc : 0 < chunk) (s s1 : RState) (er : EntryReader)
    (e : ZipEntry) (ho : readerWithEntry f i s = (.ok (er, e), s1)) :
    ∃ se, f.entries[i]? = some se ∧ e = se.entry ∧
      let d := entryData C e.compression s.data (dataStart s.data se.fileOffset) e.compressedSize.toNat
      Interrupted (er.readToEnd C chunk s1).1 ∨
        (d.ok = true ∧ ∃ er' s2, er.readToEnd C chunk s1 = (.ok (d.out, er'), s2)) ∨
        (d.ok = false ∧ (er.readToEnd C chunk s1).1 = .error (.err (.upstreamReadError .invalidData))) := by
  obtain ⟨se, hse, rfl, rfl, a1, a3, a4⟩ := readerWithEntry_ok ho
  refine ⟨se, hse, rfl, ?_⟩
  simp only
  cases hr : (EntryReader.new se.entry.compression se.entry.compressedSize.toNat).readToEnd C chunk s1 with
  | mk r s2 =>
    cases r with
    | ok x =>
      obtain ⟨b, er'⟩ := x
      obtain ⟨g1, g2, _⟩ := readToEnd_ok hc hr
      rw [rest_new, a3, a4] at g1 g2
      exact Or.inr (Or.inl ⟨g2, er', s2, by rw [g1]⟩)
    | error x =>
      obtain ⟨_, g⟩ := readToEnd_err hr
      rcases g with g | ⟨g1, g2⟩
      · exact Or.inl (interrupted_cast g)
      · rw [rest_new, a3, a4] at g2
        exact Or.inr (Or.inr ⟨g2, by rw [g1]⟩)

/-- C22. A source that keeps answering lets reading to the end complete. -/
theorem C22_completes (C : Codec) (er : EntryReader) (chunk : Nat) (data : Bytes) (pos c : Nat) (log : List RdEvent) :
    ∃ k, ¬ Interrupted (er.readToEnd C chunk ⟨data, pos, some (List.replicate k (.chunk c)), log⟩).1 := by
  obtain ⟨k, r, p, hr, h⟩ := readToEnd_completes C chunk er c data pos
  obtain ⟨l, e⟩ := h 0 log
  exact ⟨k, by rw [Nat.add_zero] at e; rw [e]; exact hr⟩

/-- Opening the only entry of the sample archive. -/
theorem Samples.one_reader (sched : Option (List RdResp)) (hs : sched = none) :
    ∃ l, readerWithEntry Samples.oneFile 0 ⟨Samples.one, 0, sched, []⟩
      = (.ok (EntryReader.new .stored 2, Samples.oneFile.entries[0].entry), ⟨Samples.one, 41, none, l⟩) := by
  subst hs
  have h1 : Runs (seekToDataOffset Samples.oneFile.entries[0]) Samples.one 0 (.ok ()) 41 := by
    refine Runs.bind Runs.seekStart (Runs.bind (pos1 := 4) (Runs.readExact (b := Samples.one.take 4) rfl rfl)
      (Runs.ite_pos (by decide) ?_))
    refine Runs.bind (pos1 := 30) (Runs.bind (Runs.readExact (b := (Samples.one.drop 4).take 26) rfl rfl) Runs.pure) ?_
    exact Runs.bind (a := 41) (pos1 := 41) Runs.seekForward Runs.pure
  obtain ⟨l, h⟩ := h1 []
  refine ⟨l, ?_⟩
  unfold readerWithEntry
  rw [show Samples.oneFile.entries[0]? = some Samples.oneFile.entries[0] from rfl]
  simp only
  rw [bind_of_ok h]
  rfl

/-- C22 on a real archive: two reads of one byte each, then zero bytes. -/
example : ∃ s1 er' s2, readerWithEntry Samples.oneFile 0 ⟨Samples.one, 0, none, []⟩
      = (.ok (EntryReader.new .stored 2, Samples.oneFile.entries[0].entry), s1) ∧
    Use Samples.lengthCodec (EntryReader.new .stored 2) s1 [.read 1 [104], .read 1 [105], .read 1 []] er' s2 := by
  obtain ⟨l, h⟩ := Samples.one_reader none rfl
  exact ⟨_, _, _, h, .read rfl (.read rfl (.read rfl (.refl _ _)))⟩

/-! ## C23 -/

/-- C23. However a fresh reader is used, a checksum query returns the CRC-32 of what was delivered since the previous
query. -/
theorem C23_hash (C : Codec) (m : Compression) (size : Nat) (s s' : RState) (er' : EntryReader) (t u : List Got)
    (h : UInt32) (hu : Use C (EntryReader.new m size) s (t ++ .hash h :: u) er' s') : h = crc32 (sinceHash [] t) := by
  obtain ⟨er1, s1, u1, u2⟩ := Use.split hu
  have := use_hasher u1 [] rfl
  rw [Use.head_hash u2, this]
  rfl

/-- C23, concretely: bytes 104, 105 with a query after each. -/
example : ∃ er' s', Use Samples.lengthCodec (EntryReader.new .stored 2) ⟨[104, 105], 0, none, []⟩
    [.read 1 [104], .hash (crc32 [104]), .read 5 [105], .hash (crc32 [105])] er' s' :=
  ⟨_, _, .read rfl (.hash (.read rfl (.hash (.refl _ _))))⟩

/-! ## C24 -/

/-- C24. After any use, `read_to_end_checked` succeeds only if the CRC-32 of all that was delivered since the last query,
together with what it returns, is the recorded one; it returns all that was left. -/
theorem C24_ok_matches (C : Codec) (m : Compression) (size chunk : Nat) (hc : 0 < chunk) (crc : UInt32)
    (s s1 s2 : RState) (er1 er2 : EntryReader) (t : List Got) (b : Bytes) (hu : Use C (EntryReader.new m size) s t er1 s1)
    (h : er1.readToEndChecked C chunk crc s1 = (.ok (b, er2), s2)) :
    crc32 (sinceHash [] t ++ b) = crc ∧ delivered t ++ b = (entryData C m s.data s.pos size).out ∧
      (entryData C m s.data s.pos size).ok = true := by
  unfold EntryReader.readToEndChecked at h
  replace h := bind_ok_iff.1 h
  obtain ⟨⟨b', er'⟩, s3, h1, h⟩ := h
  obtain ⟨g1, g2, g3, g4, g5⟩ := readToEnd_ok hc h1
  simp only at h
  split at h
  · rename_i hcrc
    simp only [pure_def, Prod.mk.injEq, Except.ok.injEq] at h
    obtain ⟨⟨rfl, _⟩, _⟩ := h
    obtain ⟨_, _, u3, u4, _⟩ := use_spec hu
    have hh := use_hasher hu [] rfl
    rw [rest_new] at u3 u4
    refine ⟨?_, by rw [← u3, g1], by rw [← u4, g2]⟩
    rw [← hcrc, show er'.computeHash.1 = er'.hasher.finalize from rfl, g5, hh, Hasher.update_append]
    rfl
  · simp at h

/-- C24. If instead the checksum differs, the outcome is `CRC32CheckError`; the only other failures are an interruption
and the decoder's. -/
theorem C24_mismatch_reported (C : Codec) (m : Compression) (size chunk : Nat) (hc : 0 < chunk) (crc : UInt32)
    (s s1 : RState) (er1 : EntryReader) (t : List Got) (hu : Use C (EntryReader.new m size) s t er1 s1)
    (hd : (entryData C m s.data s.pos size).ok = true)
    (hx : ∀ b, delivered t ++ b = (entryData C m s.data s.pos size).out → crc32 (sinceHash [] t ++ b) ≠ crc) :
    Interrupted (er1.readToEndChecked C chunk crc s1).1 ∨
      (er1.readToEndChecked C chunk crc s1).1 = .error (.err .crc32CheckError) := by
  obtain ⟨_, _, u3, u4, _⟩ := use_spec hu
  have hh := use_hasher hu [] rfl
  rw [rest_new] at u3 u4
  unfold EntryReader.readToEndChecked
  rw [bind_def]
  cases hr : er1.readToEnd C chunk s1 with
  | mk r s2 =>
    cases r with
    | ok x =>
      obtain ⟨b, er'⟩ := x
      obtain ⟨g1, g2, g3, g4, g5⟩ := readToEnd_ok hc hr
      right
      have hne : ¬ er'.computeHash.1 = crc := by
        rw [show er'.computeHash.1 = er'.hasher.finalize from rfl, g5, hh, Hasher.update_append]
        exact hx b (by rw [← u3, g1])
      simp only [if_neg hne]
      rfl
    | error e =>
      obtain ⟨_, g⟩ := readToEnd_err hr
      rcases g with g | ⟨g1, g2⟩
      · exact Or.inl (interrupted_cast g)
      · rw [u4, hd] at g2; cases g2

/-- C24. The string variant checks the same, and returns valid UTF-8. -/
theorem C24_string_matches (C : Codec) (m : Compression) (size chunk : Nat) (hc : 0 < chunk) (crc : UInt32)
    (s s2 : RState) (er2 : EntryReader) (str : RString)
    (h : (EntryReader.new m size).readToStringChecked C chunk crc s = (.ok (str, er2), s2)) :
    crc32 str.bytes = crc ∧ str.bytes = (entryData C m s.data s.pos size).out ∧ utf8Valid str.bytes = true := by
  unfold EntryReader.readToStringChecked at h
  replace h := bind_ok_iff.1 h
  obtain ⟨⟨b', er'⟩, s3, h1, h⟩ := h
  obtain ⟨g1, g2, g3, g4, g5⟩ := readToEnd_ok hc h1
  simp only at h
  split at h
  · split at h
    · rename_i hv hcrc
      simp only [pure_def, Prod.mk.injEq, Except.ok.injEq] at h
      obtain ⟨⟨rfl, _⟩, _⟩ := h
      refine ⟨?_, g1, hv⟩
      rw [← hcrc, show er'.computeHash.1 = er'.hasher.finalize from rfl, g5]
      rfl
    · simp at h
  · simp at h

/-- C24. Corruption of a Stored entry inside a window of four bytes is always reported: if the data was `p ++ w ++ q` when
its checksum was recorded and is now `p ++ w' ++ q`, a checked read never succeeds, and unless interrupted says so. -/
theorem C24_burst_detected (C : Codec) (chunk : Nat) (hc : 0 < chunk) (p w w' q : Bytes) (hl : w'.length = w.length)
    (h4 : w.length ≤ 4) (hne : w' ≠ w) (s : RState) (size : Nat) (hd : window s.data s.pos size = p ++ w' ++ q) :
    Interrupted ((EntryReader.new .stored size).readToEndChecked C chunk (crc32 (p ++ w ++ q)) s).1 ∨
      ((EntryReader.new .stored size).readToEndChecked C chunk (crc32 (p ++ w ++ q)) s).1
        = .error (.err .crc32CheckError) := by
  refine C24_mismatch_reported C .stored size chunk hc _ s s _ [] (.refl _ _) rfl ?_
  intro b hb
  have hb' : b = p ++ w' ++ q := by
    rw [entryData, if_pos rfl, hd] at hb
    exact hb
  subst hb'
  intro heq
  exact hne (crc32_burst hl (by omega) heq)

/-- C24, concretely: "hi" checks against its checksum; "ho" does not. -/
example : ∃ er s, (EntryReader.new .stored 2).readToEndChecked Samples.lengthCodec 32 3633523372
    ⟨[104, 105], 0, none, []⟩ = (.ok ([104, 105], er), s) := by
  have h : (EntryReader.new .stored 2).readToEnd Samples.lengthCodec 32 ⟨[104, 105], 0, none, []⟩
      = (.ok ([104, 105], ⟨.stored, 0, none, Hasher.new.update [104, 105]⟩), ⟨[104, 105], 2, none, [.read 0 2]⟩) :=
    (readLoop_step rfl (by decide)).trans (readLoop_stop rfl)
  refine ⟨⟨.stored, 0, none, Hasher.new⟩, ⟨[104, 105], 2, none, [.read 0 2]⟩, (bind_of_ok h).trans ?_⟩
  show (if (Hasher.new.update [104, 105]).finalize = 3633523372 then _ else _ : Rd _) _ = _
  rw [if_pos (by decide +kernel)]
  rfl

example : crc32 [104, 105] = 3633523372 := by decide +kernel

/-! ## C25 -/

/-- C25. Whatever was opened, read or abandoned before, opening an entry and continuing in any way shows the caller
exactly what a reader new to the source shows (given the same remaining behaviour of the source). -/
theorem C25_history_independent (C : Codec) (f : ZipFile) (before after : List Call) (i : Nat)
    (st : Option EntryReader × RState) :
    let now := (seekSession C f before st).2
    (seekSession C f (.open i :: after) now).1
      = (seekSession C f (.open i :: after) (none, ⟨st.2.data, 0, now.2.sched, []⟩)).1 := by
  have hd := seekSession_data C f before st
  generalize (seekSession C f before st).2 = now at *
  obtain ⟨x, d, p, sc, l⟩ := now
  simp only at hd
  subst hd
  simp only [seekSession, seekCall]
  obtain ⟨h1, h2⟩ := callOpen_same f i st.2.data p 0 sc l []
  rw [h1, seekSession_same C f after _ _ h2]

/-- C25, concretely: a partly read entry, an index out of bounds, then the entry again. -/
example : (seekSession Samples.lengthCodec Samples.oneFile [.open 0, .read 1, .open 7, .open 0, .read 9]
      (none, ⟨Samples.one, 99, none, []⟩)).1
    = [.opened Samples.oneFile.entries[0].entry, .bytes [104], .failed (.err .entryIndexOutOfBounds),
       .opened Samples.oneFile.entries[0].entry, .bytes [104, 105]] := by
  obtain ⟨l, h⟩ := Samples.one_reader none rfl
  have open0 : ∀ p l', ∃ l'', callOpen Samples.oneFile 0 ⟨Samples.one, p, none, l'⟩
      = (.opened Samples.oneFile.entries[0].entry, some (EntryReader.new .stored 2), ⟨Samples.one, 41, none, l''⟩) := by
    intro p l'
    obtain ⟨h1, h2, h3, h4, h5⟩ := callOpen_same Samples.oneFile 0 Samples.one 0 p none [] l'
    have e : callOpen Samples.oneFile 0 ⟨Samples.one, 0, none, []⟩ = (.opened Samples.oneFile.entries[0].entry,
        some (EntryReader.new .stored 2), ⟨Samples.one, 41, none, l⟩) := by
      unfold callOpen
      rw [h]
    rw [e] at h1 h2 h3 h4 h5
    generalize callOpen Samples.oneFile 0 ⟨Samples.one, p, none, l'⟩ = y at *
    obtain ⟨a, b, d, q, sc, l''⟩ := y
    simp only at h1 h2 h3 h4 h5
    subst h1 h2 h3 h4
    exact ⟨l'', by rw [← h5 (by simp)]⟩
  obtain ⟨l1, e1⟩ := open0 99 []
  simp only [seekSession, seekCall, e1]
  have e2 : callReader Samples.lengthCodec (EntryReader.new .stored 2) (.read 1) ⟨Samples.one, 41, none, l1⟩
      = (.bytes [104], some ⟨.stored, 1, none, Hasher.new.update [104]⟩, ⟨Samples.one, 42, none, l1 ++ [.read 41 1]⟩) := rfl
  rw [e2]
  have e3 : callOpen Samples.oneFile 7 ⟨Samples.one, 42, none, l1 ++ [.read 41 1]⟩
      = (.failed (.err .entryIndexOutOfBounds), none, ⟨Samples.one, 42, none, l1 ++ [.read 41 1]⟩) := rfl
  rw [e3]
  obtain ⟨l4, e4⟩ := open0 42 (l1 ++ [.read 41 1])
  rw [e4]
  rfl

/-! ## C26 -/

/-- The calls of user `u` only. -/
def callsOf (u : Nat) (cs : List SharedCall) : List SharedCall := cs.filter fun c => c.user = u

/-- What user `u` saw. -/
def seenBy (u : Nat) (l : List (Nat × Seen)) : List Seen := (l.filter fun x => x.1 = u).map (·.2)

/-- C26. In any interleaving of calls by any number of users of a shared reader, every user sees what they would see
alone. -/
theorem C26_isolation (C : Codec) (data : Bytes) (f : ZipFile) (cs : List SharedCall) (u : Nat) :
    ∀ w w' : World, w u = w' u →
      seenBy u (sharedRun C data f cs w) = seenBy u (sharedRun C data f (callsOf u cs) w') := by
  induction cs with
  | nil => intro w w' h; rfl
  | cons c cs ih =>
    intro w w' h
    by_cases hc : c.user = u
    · subst hc
      obtain ⟨h1, h2⟩ := sharedCall_own C data f c w w' h
      have ih := ih _ _ h2
      simp only [seenBy, callsOf] at ih ⊢
      simp only [sharedRun, List.filter_cons, decide_true, if_true, List.map_cons, h1, ih]
    · have h2 : (sharedCall C data f c w).2 u = w' u := by
        rw [sharedCall_other C data f c w u (fun e => hc e.symm), h]
      have ih := ih _ _ h2
      simp only [seenBy, callsOf] at ih ⊢
      simp only [sharedRun, List.filter_cons, hc, decide_false, Bool.false_eq_true, if_false, ih]

/-- C26, concretely: two users take turns on the same entry; the second sees its first byte too. -/
example : seenBy 2 (sharedRun Samples.lengthCodec Samples.one Samples.oneFile
      [⟨1, .open 0, none, none⟩, ⟨2, .open 0, none, none⟩, ⟨1, .read 1, none, none⟩, ⟨2, .read 1, none, none⟩] World.empty)
    = [.opened Samples.oneFile.entries[0].entry, .bytes [104]] := by
  refine (C26_isolation Samples.lengthCodec Samples.one Samples.oneFile _ 2 _ World.empty rfl).trans ?_
  obtain ⟨l, h⟩ := Samples.one_reader none rfl
  have e : callOpen Samples.oneFile 0 ⟨Samples.one, 0, none, []⟩ = (.opened Samples.oneFile.entries[0].entry,
      some (EntryReader.new .stored 2), ⟨Samples.one, 41, none, l⟩) := by
    unfold callOpen
    rw [h]
  have e1 : ∀ w, sharedCall Samples.lengthCodec Samples.one Samples.oneFile ⟨2, .open 0, none, none⟩ w
      = (.opened Samples.oneFile.entries[0].entry,
          w.set 2 (some (EntryReader.new .stored 2, ⟨Samples.one, 41, none, l⟩))) := by
    intro w
    unfold sharedCall
    simp only
    rw [if_neg (by simp [Samples.oneFile]), e]
  show seenBy 2 (sharedRun Samples.lengthCodec Samples.one Samples.oneFile
    [⟨2, .open 0, none, none⟩, ⟨2, .read 1, none, none⟩] World.empty) = _
  simp only [sharedRun, e1]
  rfl

/-! ## C27 -/

/-- C27. An index is accepted exactly if it is below the number of entries; otherwise `EntryIndexOutOfBounds` is reported
without touching the source. -/
theorem C27_out_of_bounds (f : ZipFile) (i : Nat) (s : RState) (h : f.entries.length ≤ i) :
    readerWithEntry f i s = (.error (.err .entryIndexOutOfBounds), s) ∧
    readerWithoutEntry f i s = (.error (.err .entryIndexOutOfBounds), s) := by
  unfold readerWithEntry readerWithoutEntry
  rw [List.getElem?_eq_none h]
  exact ⟨rfl, rfl⟩

/-- C27. In bounds, that error never occurs, and what is opened is the `i`-th entry. -/
theorem C27_in_bounds (f : ZipFile) (i : Nat) (s s' : RState) (h : i < f.entries.length) :
    (readerWithEntry f i s).1 ≠ .error (.err .entryIndexOutOfBounds) ∧
    ∀ er e, readerWithEntry f i s = (.ok (er, e), s') → e = f.entries[i].entry ∧
      readerWithoutEntry f i s = (.ok er, s') := by
  constructor
  · intro hx
    have hs : ∀ {s1 : RState} {x : Fail}, seekToDataOffset f.entries[i] s = (.error x, s1) → x ≠ .err .entryIndexOutOfBounds := by
      intro s1 x hs hx
      subst hx
      have int : ∀ {α : Type}, ¬ Interrupted (.error (.err .entryIndexOutOfBounds) : Res α) :=
        not_interrupted_own trivial
      unfold seekToDataOffset at hs
      have hseek : ∀ {t : Nat} {s s1 : RState}, Rd.seekTo t s ≠ (.error (.err .entryIndexOutOfBounds), s1) := by
        intro t s s1 hs
        unfold Rd.seekTo at hs
        split at hs
        · cases hs
        · exact int (seekSched_error hs)
      have hread : ∀ {n : Nat} {s s1 : RState}, readExact n s ≠ (.error (.err .entryIndexOutOfBounds), s1) := by
        have : ∀ n, ∀ {acc : Bytes} {s s1 : RState}, readExactLoop n acc s ≠ (.error (.err .entryIndexOutOfBounds), s1) := by
          intro n
          induction n using Nat.strongRecOn with
          | ind n ih =>
            intro acc s s1 hs
            unfold readExactLoop at hs
            split at hs
            · cases hs
            · rcases bind_error_iff.1 hs with hs | ⟨b, s2, _, hs⟩
              · exact int (readOnce_err hs).2.2
              · split at hs
                · simp at hs
                · exact ih _ (by omega) hs
        exact fun {n} => this n
      rcases bind_error_iff.1 hs with hs | ⟨_, s2, _, hs⟩
      · exact hseek hs
      · rcases bind_error_iff.1 hs with hs | ⟨_, s3, _, hs⟩
        · exact hread hs
        · split at hs
          · rcases bind_error_iff.1 hs with hs | ⟨_, s4, _, hs⟩
            · rcases bind_error_iff.1 hs with hs | ⟨_, s4, _, hs⟩
              · exact hread hs
              · cases hs
            · rcases bind_error_iff.1 hs with hs | ⟨_, s4, _, hs⟩
              · exact hseek hs
              · cases hs
          · simp at hs
    unfold readerWithEntry at hx
    rw [List.getElem?_eq_getElem h] at hx
    cases hr : seekToDataOffset f.entries[i] s with
    | mk r s1 =>
      cases r with
      | ok x =>
        simp only [bind_def] at hx
        rw [hr] at hx
        cases hx
      | error x =>
        simp only [bind_def] at hx
        rw [hr] at hx
        simp only [Except.error.injEq] at hx
        exact hs hr hx
  · intro er e ho
    constructor
    · obtain ⟨se, h1, h2, _⟩ := readerWithEntry_ok ho
      rw [List.getElem?_eq_getElem h] at h1
      rw [h2, Option.some.inj h1]
    · rw [readerWithoutEntry_eq, bind_of_ok ho]
      rfl

/-- C27 on the sample archive: index 0 is accepted, index 1 is not. -/
example : (readerWithEntry Samples.oneFile 1 ⟨Samples.one, 0, none, []⟩).1 = .error (.err .entryIndexOutOfBounds) ∧
    ∃ r s, readerWithEntry Samples.oneFile 0 ⟨Samples.one, 0, none, []⟩ = (.ok r, s) := by
  obtain ⟨l, h⟩ := Samples.one_reader none rfl
  exact ⟨rfl, _, _, h⟩

end AsyncZip
