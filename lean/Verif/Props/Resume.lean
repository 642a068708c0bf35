import Verif.Proofs.Resume
import Verif.Props.Reading

/-! # Property theorems: carrying on after failed reads -/

namespace AsyncZip
open Spec Rd

/-! ## C64 -/

/-- C64. However the calls on an entry reader went (any number of reads, of `read_to_end`s that failed half-way or were
dropped, of checksum queries), what the caller was handed so far, taken together, is the beginning of the entry's data. -/
theorem C64_prefix (C : Codec) (f : ZipFile) (m : Compression) (len : Nat) (calls : List Call)
    (hc : ∀ c ∈ calls, opens c = false) (s : RState) :
    handed (seekSession C f calls (some (EntryReader.new m len), s)).1 <+: (entryData C m s.data s.pos len).out := by
  obtain ⟨t, er', s', -, h2, h3, -⟩ := session_use (C := C) (f := f) calls hc (EntryReader.new m len) s
  obtain ⟨-, -, u3, -, -⟩ := use_spec h2
  rw [rest_new] at u3
  rw [← h3]
  exact ⟨_, u3⟩

/-- C64. Once a `read_to_end` succeeds, the caller has been handed the entry's data, all of it, nothing twice, whatever
failed in between; the source is behind the data; and if the checksum was not queried before, it is that of all of it. -/
theorem C64_resumed (C : Codec) (f : ZipFile) (m : Compression) (len chunk : Nat) (hch : 0 < chunk) (calls : List Call)
    (hc : ∀ c ∈ calls, opens c = false) (s s' : RState) (er' : EntryReader) (seen : List Seen) (b : Bytes)
    (h : seekSession C f (calls ++ [.readToEnd chunk]) (some (EntryReader.new m len), s) = (seen ++ [.bytes b], some er', s')) :
    handed seen ++ b = (entryData C m s.data s.pos len).out ∧ (entryData C m s.data s.pos len).ok = true ∧
    s'.pos = s.pos + (entryData C m s.data s.pos len).used ∧
    (.computeHash ∉ calls → er'.computeHash.1 = crc32 (entryData C m s.data s.pos len).out) := by
  have happ : ∀ (a c : List Call) (st : Option EntryReader × RState), seekSession C f (a ++ c) st
      = ((seekSession C f a st).1 ++ (seekSession C f c (seekSession C f a st).2).1,
        (seekSession C f c (seekSession C f a st).2).2) := by
    intro a c
    induction a with
    | nil => intro st; rfl
    | cons x a ih => intro st; simp only [List.cons_append, seekSession, ih]
  obtain ⟨t, er1, s1, h1, h2, h3, h4⟩ := session_use (C := C) (f := f) calls hc (EntryReader.new m len) s
  rw [happ, h1] at h
  simp only [seekSession, seekCall, Prod.mk.injEq] at h
  obtain ⟨ha, hb⟩ := h
  obtain ⟨hseen, hlast⟩ := List.append_inj' ha rfl
  simp only [List.cons.injEq, and_true] at hlast
  obtain ⟨u1, u2, u3, u4, u5⟩ := use_spec h2
  rw [rest_new] at u3 u4 u5
  cases hr : er1.readToEnd C chunk s1 with
  | mk r s2 =>
  cases r with
  | error e =>
    unfold callReader at hlast
    simp only [hr] at hlast
    cases hlast
  | ok p =>
    obtain ⟨b', er2⟩ := p
    unfold callReader at hlast hb
    simp only [hr, Prod.mk.injEq, Option.some.injEq, Seen.bytes.injEq] at hlast hb
    obtain ⟨rfl, rfl⟩ := hb
    subst hlast
    obtain ⟨r1, r2, r3, r4, r5⟩ := readToEnd_ok hch hr
    have hout : handed seen ++ b' = (entryData C m s.data s.pos len).out := by rw [← hseen, ← h3, r1, u3]
    refine ⟨hout, by rw [← u4, r2], by rw [r3, u5], fun hn => ?_⟩
    have hh := use_hasher h2 [] rfl
    rw [sinceHash_noHash (h4 hn), List.nil_append] at hh
    show er2.hasher.finalize = _
    rw [r5, hh, Hasher.update_append, h3, hseen, hout]
    rfl

/-- C64. Trying again is enough: if the source reports `k` errors in all, then one of `k + 1` calls of `read_to_end`
succeeds (provided the data is what its decoder accepts and the source goes on answering). -/
theorem C64_retry (C : Codec) (f : ZipFile) (m : Compression) (len chunk : Nat) (s : RState)
    (rs : List RdResp) (hs : s.sched = some rs) (hok : (entryData C m s.data s.pos len).ok = true)
    (ha : (entryData C m s.data s.pos len).out.length < answers rs) :
    ∃ k ≤ faults rs, ∃ seen b er' s', seekSession C f (List.replicate k (.readToEnd chunk) ++ [.readToEnd chunk])
      (some (EntryReader.new m len), s) = (seen ++ [.bytes b], some er', s') := by
  rw [← rest_new] at hok ha
  generalize EntryReader.new m len = er at *
  induction hf : faults rs using Nat.strongRecOn generalizing er s rs with
  | _ n ih =>
  rcases attempt (chunk := chunk) er [] s rs hs hok ha with ⟨b, er', s', h⟩ | ⟨e, s', rs', h1, h2, h3, h4, h5⟩
  · refine ⟨0, Nat.zero_le _, [], b, er', s', ?_⟩
    have h : er.readToEnd C chunk s = (.ok (b, er'), s') := h
    simp only [List.replicate_zero, List.nil_append, seekSession, seekCall, callReader, h]
  · obtain ⟨k, hk, seen, b, er', s2, h6⟩ := ih _ (by omega) s' rs' h2 _ h4 h5 rfl
    refine ⟨k + 1, by omega, .cut (er.readPart C chunk [] s).1 e :: seen, b, er', s2, ?_⟩
    have h : er.readToEnd C chunk s = (.error e, s') := h1
    rw [List.replicate_succ, List.cons_append]
    simp only [seekSession, seekCall, callReader, h]
    rw [h6]
    rfl

/-- C64, concretely: the source answers once, fails, then answers. The first `read_to_end` fails and leaves "h"; the second
returns "i", and the checksum is that of "hi". -/
example : seekSession Samples.lengthCodec Samples.oneFile [.readToEnd 32, .readToEnd 32, .computeHash]
      (some (EntryReader.new .stored 2), ⟨[104, 105], 0, some [.chunk 0, .pending, .error 5, .chunk 9, .chunk 9], []⟩)
    = ([.cut [104] (.err (.upstreamReadError (.other 5))), .bytes [105], .hash 3633523372],
      some ⟨.stored, 0, none, Hasher.new⟩,
      ⟨[104, 105], 2, some [.chunk 9], [.read 0 2, .read 1 1, .read 1 1]⟩) := by
  have p1 : (EntryReader.new .stored 2).readPart Samples.lengthCodec 32 []
      ⟨[104, 105], 0, some [.chunk 0, .pending, .error 5, .chunk 9, .chunk 9], []⟩
      = ([104], ⟨.stored, 1, none, Hasher.new.update [104]⟩) :=
    (readPart_step rfl (by decide)).trans (readPart_failed rfl)
  have l1 : (EntryReader.new .stored 2).readToEnd Samples.lengthCodec 32
      ⟨[104, 105], 0, some [.chunk 0, .pending, .error 5, .chunk 9, .chunk 9], []⟩
      = (.error (.err (.upstreamReadError (.other 5))),
        ⟨[104, 105], 1, some [.chunk 9, .chunk 9], [.read 0 2, .read 1 1]⟩) :=
    (readLoop_step rfl (by decide)).trans (readLoop_failed rfl)
  have l2 : EntryReader.readToEnd Samples.lengthCodec 32 ⟨.stored, 1, none, Hasher.new.update [104]⟩
      ⟨[104, 105], 1, some [.chunk 9, .chunk 9], [.read 0 2, .read 1 1]⟩
      = (.ok ([105], ⟨.stored, 0, none, (Hasher.new.update [104]).update [105]⟩),
        ⟨[104, 105], 2, some [.chunk 9], [.read 0 2, .read 1 1, .read 1 1]⟩) :=
    (readLoop_step rfl (by decide)).trans (readLoop_stop rfl)
  simp only [seekSession, seekCall, callReader, l1, p1, l2]
  have : ((Hasher.new.update [104]).update [105]).finalize = 3633523372 := by decide +kernel
  simp only [EntryReader.computeHash, this]

/-- C64: the hypotheses of the retry theorem hold there. -/
example : faults [.chunk 0, .pending, .error 5, .chunk 9, .chunk 9] = 1 ∧
    (entryData Samples.lengthCodec .stored [104, 105] 0 2).out.length
      < answers [.chunk 0, .pending, .error 5, .chunk 9, .chunk 9] := by decide +kernel

end AsyncZip
