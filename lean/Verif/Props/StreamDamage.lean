import Verif.Proofs.StreamDamage
import Verif.Props.Ahead
import Verif.Props.Damage
/-!
# C72: streaming over damage in the data of an entry
-/

namespace AsyncZip
open Spec Rd

theorem SameOutside.ahead {x y : Bytes} {lo hi : Nat} (h : SameOutside x y lo hi) (sched : Option (List RdResp))
    (log log' : List RdEvent) : SameAhead ⟨x, hi, sched, log⟩ ⟨y, hi, sched, log'⟩ := ⟨h.after, rfl⟩

/-- C72: a streaming client gets to a stored entry and beyond (`h`). In another file of the same length the data of that entry,
and only that, is different. Whatever the client does with the entry (short of finding that a check fails) and afterwards, in
the one file and in the other, it gets the same: the same entries and data before and after, or the same error; only what it sees
of the entry's own data is what stands in the file. -/
theorem C72_contained (C : Codec) (hC : FrontToBack C) (b : Build) (vs : List Visit) (v : Visit) (hv : ∀ u ∈ vs ++ [v], u.Buffered)
    (s s' t : RState) (xs : List (ZipEntry × Option Bytes)) (e : ZipEntry) (o : Option Bytes)
    (h : visits C b (vs ++ [v]) s = (.ok (xs ++ [(e, o)], false), s')) (hm : e.compression = .stored)
    (hp : s'.pos < s.data.length) (htp : t.pos = s.pos)
    (hs : SameOutside t.data s.data (s'.pos - e.compressedSize.toNat) s'.pos) (w : Visit) (hw : w.Buffered)
    (hcs : w.Confirms e (window s.data (s'.pos - e.compressedSize.toNat) e.compressedSize.toNat))
    (hct : w.Confirms e (window t.data (s'.pos - e.compressedSize.toNat) e.compressedSize.toNat))
    (ws : List Visit) (hws : ∀ u ∈ ws, u.Buffered) :
    Interrupted (visits C b (vs ++ w :: ws) s).1 ∨ Interrupted (visits C b (vs ++ w :: ws) t).1 ∨
      (∃ ys ended,
        (visits C b (vs ++ w :: ws) s).1 =
          .ok (xs ++ (e, w.sees (window s.data (s'.pos - e.compressedSize.toNat) e.compressedSize.toNat)) :: ys, ended) ∧
        (visits C b (vs ++ w :: ws) t).1 =
          .ok (xs ++ (e, w.sees (window t.data (s'.pos - e.compressedSize.toNat) e.compressedSize.toNat)) :: ys, ended)) ∨
      ∃ y, (visits C b (vs ++ w :: ws) s).1 = .error y ∧ (visits C b (vs ++ w :: ws) t).1 = .error y := by
  have hall : ∀ u ∈ vs ++ w :: ws, u.Buffered := fun u hu => by
    rcases List.mem_append.1 hu with hu | hu
    · exact hv u (List.mem_append_left _ hu)
    · rcases List.mem_cons.1 hu with rfl | hu
      · exact hw
      · exact hws u hu
  obtain ⟨hdd, hn, p1, a1, a2, a3, a4⟩ := damage_start hC (fun u hu => hv u (List.mem_append_left _ hu))
    (hv v (List.mem_append_right _ List.mem_cons_self)) (visits_ideal hC hv h) hm hp hs
  have key : ∀ data : Bytes, data.length = s.data.length →
      w.Confirms e (window data (s'.pos - e.compressedSize.toNat) e.compressedSize.toNat) →
      Runs (consume C (EntryReader.new e.compression e.compressedSize.toNat) e.crc32 w) data (s'.pos - e.compressedSize.toNat)
        (.ok (w.sees (window data (s'.pos - e.compressedSize.toNat) e.compressedSize.toNat))) s'.pos := by
    intro data hl hcd
    have hed : entryData C e.compression data (s'.pos - e.compressedSize.toNat) e.compressedSize.toNat =
        ⟨window data (s'.pos - e.compressedSize.toNat) e.compressedSize.toNat, e.compressedSize.toNat, true⟩ := by
      unfold entryData
      rw [if_pos hm, window_length (by omega)]
    have := consume_runs (C := C) (m := e.compression) (len := e.compressedSize.toNat) (crc := e.crc32) (v := w) (data := data)
      (pos := s'.pos - e.compressedSize.toNat) hw (by rw [hed]) (by rw [hed]; rintro ⟨k, hk, hne⟩; exact hne (hcd k hk))
    rw [hed] at this
    simp only at this
    rw [Nat.sub_add_cancel hn] at this
    exact this
  obtain ⟨l1, b1⟩ := damage_rest (ws := ws) a1 a3 hdd (key s.data rfl hcs) []
  obtain ⟨l2, b2⟩ := damage_rest (ws := ws) a2 a4 hdd (key t.data hs.length hct) []
  have hsame := (visits_ahead C b ws _ _ (SameOutside.ahead hs none l2 l1)).1
  rcases visits_as_ideal (C := C) (b := b) hall s [] with g1 | g1
  · exact Or.inl g1
  rcases visits_as_ideal (C := C) (b := b) hall t [] with g2 | g2
  · exact Or.inr (Or.inl g2)
  right; right
  rw [g1, g2, htp, b1, b2, hsame]
  cases (visits C b ws ⟨s.data, s'.pos, none, l1⟩).1 with
  | ok y => exact Or.inl ⟨y.1, y.2, rfl, rfl⟩
  | error y => exact Or.inr ⟨y, rfl, rfl⟩

/-- C72, noticing: if the client asks for the check and the checksum of the data is not that of the header, it is told. -/
theorem C72_noticed (C : Codec) (hC : FrontToBack C) (b : Build) (vs : List Visit) (v : Visit) (hv : ∀ u ∈ vs ++ [v], u.Buffered)
    (s s' t : RState) (xs : List (ZipEntry × Option Bytes)) (e : ZipEntry) (o : Option Bytes)
    (h : visits C b (vs ++ [v]) s = (.ok (xs ++ [(e, o)], false), s')) (hm : e.compression = .stored)
    (hp : s'.pos < s.data.length) (htp : t.pos = s.pos)
    (hs : SameOutside t.data s.data (s'.pos - e.compressedSize.toNat) s'.pos) (k : Nat) (hk : 0 < k)
    (hne : crc32 (window t.data (s'.pos - e.compressedSize.toNat) e.compressedSize.toNat) ≠ e.crc32)
    (ws : List Visit) (hws : ∀ u ∈ ws, u.Buffered) :
    Interrupted (visits C b (vs ++ .check k :: ws) t).1 ∨ (visits C b (vs ++ .check k :: ws) t).1 = .error (.err .crc32CheckError) := by
  have hall : ∀ u ∈ vs ++ .check k :: ws, u.Buffered := fun u hu => by
    rcases List.mem_append.1 hu with hu | hu
    · exact hv u (List.mem_append_left _ hu)
    · rcases List.mem_cons.1 hu with rfl | hu
      · exact hk
      · exact hws u hu
  obtain ⟨hdd, hn, p1, a1, a2, a3, a4⟩ := damage_start hC (fun u hu => hv u (List.mem_append_left _ hu))
    (hv v (List.mem_append_right _ List.mem_cons_self)) (visits_ideal hC hv h) hm hp hs
  have hed : entryData C e.compression t.data (s'.pos - e.compressedSize.toNat) e.compressedSize.toNat =
      ⟨window t.data (s'.pos - e.compressedSize.toNat) e.compressedSize.toNat, e.compressedSize.toNat, true⟩ := by
    unfold entryData
    rw [if_pos hm, window_length (by rw [hs.length]; omega)]
  have b2 := damage_rest (ws := ws) a2 a4 hdd (consume_refused (C := C) (m := e.compression) (len := e.compressedSize.toNat)
    (crc := e.crc32) hk (by rw [hed]) (by rw [hed]; exact hne)) []
  refine (visits_as_ideal (C := C) (b := b) hall t []).imp id fun g => ?_
  rw [g, htp]
  exact b2

/-- C72, small damage: if the header has the checksum of the undamaged data and the damage is within four consecutive bytes of
it, a client that asks for the check is told. -/
theorem C72_burst (C : Codec) (hC : FrontToBack C) (b : Build) (vs : List Visit) (v : Visit) (hv : ∀ u ∈ vs ++ [v], u.Buffered)
    (s s' t : RState) (xs : List (ZipEntry × Option Bytes)) (e : ZipEntry) (o : Option Bytes)
    (h : visits C b (vs ++ [v]) s = (.ok (xs ++ [(e, o)], false), s')) (hm : e.compression = .stored)
    (hp : s'.pos < s.data.length) (htp : t.pos = s.pos)
    (hcrc : crc32 (window s.data (s'.pos - e.compressedSize.toNat) e.compressedSize.toNat) = e.crc32)
    (lo n : Nat) (hn : n ≤ 4) (hlo : s'.pos - e.compressedSize.toNat ≤ lo) (hhi : lo + n ≤ s'.pos)
    (hs : SameOutside t.data s.data lo (lo + n)) (hne : t.data ≠ s.data) (k : Nat) (hk : 0 < k)
    (ws : List Visit) (hws : ∀ u ∈ ws, u.Buffered) :
    Interrupted (visits C b (vs ++ .check k :: ws) t).1 ∨ (visits C b (vs ++ .check k :: ws) t).1 = .error (.err .crc32CheckError) := by
  have hs' : SameOutside t.data s.data (s'.pos - e.compressedSize.toNat) s'.pos := by
    refine ⟨hs.length, ?_, ?_⟩
    · have := congrArg (List.take (s'.pos - e.compressedSize.toNat)) hs.before
      rwa [List.take_take, List.take_take, Nat.min_eq_left hlo] at this
    · have := congrArg (List.drop (s'.pos - (lo + n))) hs.after
      rwa [List.drop_drop, List.drop_drop, Nat.add_sub_cancel' hhi] at this
  refine C72_noticed C hC b vs v hv s s' t xs e o h hm hp htp hs' k hk (fun hc => hne ?_) ws hws
  rw [← hcrc] at hc
  have hpn : e.compressedSize.toNat ≤ s'.pos :=
    (damage_start hC (fun u hu => hv u (List.mem_append_left _ hu))
      (hv v (List.mem_append_right _ List.mem_cons_self)) (visits_ideal hC hv h) hm hp hs').2.1
  generalize hst : s'.pos - e.compressedSize.toNat = st at *
  have hsz : e.compressedSize.toNat = (lo - st) + (n + (s'.pos - (lo + n))) := by omega
  rw [hsz, window_split, window_split, window_split, window_split, show st + (lo - st) = lo by omega] at hc
  have hbef : window t.data st (lo - st) = window s.data st (lo - st) := by
    refine window_of_same fun p h1 h2 => ?_
    have e1 : (t.data.take lo)[p]? = (s.data.take lo)[p]? := by rw [hs.before]
    rwa [List.getElem?_take_of_lt (by omega), List.getElem?_take_of_lt (by omega)] at e1
  have haft : window t.data (lo + n) (s'.pos - (lo + n)) = window s.data (lo + n) (s'.pos - (lo + n)) := by
    unfold window
    rw [hs.after]
  rw [hbef, haft, ← List.append_assoc, ← List.append_assoc] at hc
  have hw := crc32_burst (by rw [window_length (by rw [hs.length]; omega), window_length (by omega)])
    (by rw [window_length (by rw [hs.length]; omega)]; exact hn) hc
  rw [← List.take_append_drop lo t.data, ← List.take_append_drop lo s.data, hs.before,
    ← List.take_append_drop n (t.data.drop lo), ← List.take_append_drop n (s.data.drop lo), List.drop_drop, List.drop_drop, hs.after]
  rw [show (t.data.drop lo).take n = (s.data.drop lo).take n from hw]

namespace Samples

/-- `one` with the first byte of its data changed. -/
def oneHurt : Bytes := one.take 41 ++ 105 :: one.drop 42

theorem one_first (b : Build) : Runs (visits markCodec b [.read 9]) one 0 (.ok ([(oneNext, some [104, 105])], false)) 43 := by
  have h1 := one_visit b (data := one) rfl
  rw [show window one 41 2 = [104, 105] by decide +kernel] at h1
  exact Runs.bind h1 (Runs.bind Runs.pure Runs.pure)

theorem oneHurt_outside : SameOutside oneHurt one 41 42 := by
  refine ⟨?_, ?_, ?_⟩ <;> decide +kernel

end Samples

/-- C72, concretely: one changed byte in the only entry of an archive. The client that does not check sees it and goes on. -/
example (b : Build) (t : RState) (ht : t.data = Samples.oneHurt) (hp : t.pos = 0) :
    Interrupted (visits Samples.markCodec b [.read 4, .skip] t).1 ∨
      (visits Samples.markCodec b [.read 4, .skip] t).1 = .ok ([(Samples.oneNext, some [105, 105])], true) := by
  obtain ⟨l, h⟩ := Samples.one_first b []
  obtain ⟨l', h'⟩ := Samples.one_visits b []
  have hlen : Samples.one.length = 125 := by decide +kernel
  have hv : ∀ u ∈ ([] : List Visit) ++ [.read 9], u.Buffered := by
    simp only [List.nil_append, List.forall_mem_cons]
    exact ⟨Nat.succ_pos 8, fun _ h => by cases h⟩
  have hw : ∀ u ∈ [Visit.skip], u.Buffered := by
    simp only [List.forall_mem_cons]
    exact ⟨trivial, fun _ h => by cases h⟩
  rcases C72_contained Samples.markCodec Samples.markCodec_front b [] (.read 9) hv ⟨Samples.one, 0, none, []⟩ _ t [] Samples.oneNext _
    h rfl (by show 43 < Samples.one.length; omega) hp (by
      rw [ht]
      show SameOutside Samples.oneHurt Samples.one 41 43
      refine ⟨?_, ?_, ?_⟩ <;> decide +kernel) (.read 4) (Nat.succ_pos 3) (fun _ h => by cases h) (fun _ h => by cases h) [.skip] hw
    with g | g | ⟨ys, en, g1, g2⟩ | ⟨y, g, _⟩
  · exact absurd g (visits_calm Samples.markCodec b _ _ rfl).1
  · exact Or.inl g
  · right
    have e := Samples.one_visits b
    rw [List.nil_append] at g1 g2
    rcases C65_streaming Samples.markCodec b [.read 9, .skip] [.read 4, .skip]
      (.cons (.read (Nat.succ_pos 8) (Nat.succ_pos 3)) (.cons .skip .nil)) ⟨Samples.one, 0, none, []⟩ ⟨Samples.one, 0, none, []⟩ rfl rfl
      with k | k | k
    · exact absurd k (visits_calm Samples.markCodec b _ _ rfl).1
    · exact absurd k (visits_calm Samples.markCodec b _ _ rfl).1
    · rw [h', g1] at k
      simp only [Except.ok.injEq, Prod.mk.injEq, List.nil_append, List.cons.injEq] at k
      obtain ⟨⟨_, rfl⟩, rfl⟩ := k
      rw [g2, ht]
      show Except.ok ([(Samples.oneNext, some (window Samples.oneHurt 41 2))], true) = _
      rw [show window Samples.oneHurt 41 2 = [105, 105] by decide +kernel]
  · rw [List.nil_append] at g
    rcases C65_streaming Samples.markCodec b [.read 9, .skip] [.read 4, .skip]
      (.cons (.read (Nat.succ_pos 8) (Nat.succ_pos 3)) (.cons .skip .nil)) ⟨Samples.one, 0, none, []⟩ ⟨Samples.one, 0, none, []⟩ rfl rfl
      with k | k | k
    · exact absurd k (visits_calm Samples.markCodec b _ _ rfl).1
    · exact absurd k (visits_calm Samples.markCodec b _ _ rfl).1
    · rw [h', g] at k
      cases k

/-- C72, concretely: the client that checks is told. -/
example (b : Build) (t : RState) (ht : t.data = Samples.oneHurt) (hp : t.pos = 0) :
    Interrupted (visits Samples.markCodec b [.check 4, .skip] t).1 ∨
      (visits Samples.markCodec b [.check 4, .skip] t).1 = .error (.err .crc32CheckError) := by
  obtain ⟨l, h⟩ := Samples.one_first b []
  have hlen : Samples.one.length = 125 := by decide +kernel
  refine C72_burst Samples.markCodec Samples.markCodec_front b [] (.read 9) ?_ ⟨Samples.one, 0, none, []⟩ _ t [] Samples.oneNext _
    h rfl (by show 43 < Samples.one.length; omega) hp ?_ 41 1 (by omega) (by show 43 - 2 ≤ 41; omega) (by show 41 + 1 ≤ 43; omega)
    (by rw [ht]; exact Samples.oneHurt_outside) ?_ 4 (Nat.succ_pos 3) [.skip] ?_
  · simp only [List.nil_append, List.forall_mem_cons]
    exact ⟨Nat.succ_pos 8, fun _ h => by cases h⟩
  · show crc32 (window Samples.one 41 2) = 3633523372
    decide +kernel
  · rw [ht]
    show Samples.oneHurt ≠ Samples.one
    decide +kernel
  · simp only [List.forall_mem_cons]
    exact ⟨trivial, fun _ h => by cases h⟩

namespace Samples

/-- The third entry of `tour` as the streaming reader shows it. -/
def thirdNext : ZipEntry :=
  { filename := ⟨.utf8, [98], none⟩, compression := .deflate, compressionLevel := .default
    crc32 := 2724731650, uncompressedSize := 1, compressedSize := 3, attributeCompatibility := .unix
    lastModificationDate := ⟨0, 0⟩, internalFileAttribute := 0, externalFileAttribute := 0
    extraFields := [], comment := ⟨.utf8, [], none⟩, dataDescriptor := false }

/-- `tourBytes` with the first byte of the third entry's compressed data changed. -/
def tourHurt : Bytes := tourBytes.take 141 ++ 0 :: tourBytes.drop 142

theorem third_header (b : Build) {data : Bytes} (h : (data.drop 110).take 31 = (tourBytes.drop 110).take 31) :
    Runs (lfh b) data 110 (.ok (some thirdNext)) 141 := by
  have hw : ∀ p k, p + k ≤ 31 → (data.drop (110 + p)).take k = (tourBytes.drop (110 + p)).take k := fun p k hk => by
    rw [← List.drop_drop, ← List.drop_drop, ← window_take (data := data.drop 110) hk, ← window_take (data := tourBytes.drop 110) hk, h]
  obtain ⟨p, h1, h2⟩ := Runs.lfhAt (b := b) (data := data) (pos := 110) (name := [98])
    (xb := []) (hb := (tourBytes.drop 114).take 26) ((hw 0 4 (by omega)).trans (by decide +kernel))
    (hw 4 _ (by omega)) (by decide +kernel)
    ((hw 30 _ (by decide +kernel)).trans (by decide +kernel)) ((hw 31 _ (by decide +kernel)).trans (by decide +kernel))
  have ho : lfhOutcome b (LocalFileHeader.ofBytes ((tourBytes.drop 114).take 26)) [98] [] = .ok (some thirdNext) := by
    unfold lfhOutcome
    rw [show Compression.tryFrom (LocalFileHeader.ofBytes ((tourBytes.drop 114).take 26)).compression = .ok .deflate by decide +kernel,
      show (LocalFileHeader.ofBytes ((tourBytes.drop 114).take 26)).uncompressedSize = 1 by decide +kernel,
      show (LocalFileHeader.ofBytes ((tourBytes.drop 114).take 26)).compressedSize = 3 by decide +kernel, noExtra]
    rfl
  have hp := h2 _ ho
  rw [ho] at h1
  subst hp
  exact h1

end Samples

/-- C72 does not hold of compressed entries. When the decoder finds the end of the compressed data early, the streaming reader
does not skip the rest of it, although the header says how long it is: it goes on right there, in the middle of the data. Here one
byte of the last entry is changed; the client does not even look at the data, and still is not told that there are no more
entries, but gets an error. (The seeking reader is not affected; see C70.) -/
theorem C72_compressed_fails (b : Build) : ∃ e : ZipEntry, e.compression = .deflate ∧ e.compressedSize = 3 ∧ e.dataDescriptor = false ∧
    SameOutside Samples.tourHurt Samples.tourBytes 141 144 ∧
    (∀ s : RState, s.data = Samples.tourBytes → s.pos = 110 → Interrupted (visits Samples.markCodec b [.skip, .skip] s).1 ∨
      (visits Samples.markCodec b [.skip, .skip] s).1 = .ok ([(e, none)], true)) ∧
    (∀ s : RState, s.data = Samples.tourHurt → s.pos = 110 → Interrupted (visits Samples.markCodec b [.skip] s).1 ∨
      (visits Samples.markCodec b [.skip] s).1 = .ok ([(e, none)], false)) ∧
    ∀ s : RState, s.data = Samples.tourHurt → s.pos = 110 → Interrupted (visits Samples.markCodec b [.skip, .skip] s).1 ∨
      ∃ y, (visits Samples.markCodec b [.skip, .skip] s).1 = .error y := by
  have hv : ∀ vs : List Visit, (∀ v ∈ vs, v = .skip) → ∀ v ∈ vs, v.Buffered := fun vs h v hm => by rw [h v hm]; trivial
  have hv1 := hv [.skip] (by simp)
  have hv2 := hv [.skip, .skip] (by simp)
  have step : ∀ {data : Bytes} {d : DecodeResult}, (data.drop 110).take 31 = (Samples.tourBytes.drop 110).take 31 →
      entryData Samples.markCodec .deflate data 141 3 = d → d.ok = true →
      Runs (visit Samples.markCodec b .skip) data 110 (.ok (some (Samples.thirdNext, none))) (141 + d.used) := by
    intro data d h hd hok
    rw [visit_eq]
    have hc := consume_runs (C := Samples.markCodec) (m := .deflate) (len := 3) (crc := Samples.thirdNext.crc32) (v := .skip)
      (data := data) (pos := 141) trivial (by rw [hd]; exact hok) (by rintro ⟨k, hk, _⟩; cases hk)
    rw [hd] at hc
    exact Runs.bind (Samples.third_header b h) (Runs.bind hc (Runs.bind Runs.pure Runs.pure))
  have h1 := step (data := Samples.tourBytes) (d := ⟨[5], 3, true⟩) rfl (by decide +kernel) rfl
  have h2 := step (data := Samples.tourHurt) (d := ⟨[], 1, true⟩) (by decide +kernel) (by decide +kernel) rfl
  refine ⟨Samples.thirdNext, rfl, rfl, rfl, ?_, fun s hs hp => ?_, fun s hs hp => ?_, fun s hs hp => ?_⟩
  · refine ⟨?_, ?_, ?_⟩ <;> decide +kernel
  · have h3 : Runs (visits Samples.markCodec b [.skip, .skip]) Samples.tourBytes 110 (.ok ([(Samples.thirdNext, none)], true)) 148 := by
      refine Runs.bind h1 (Runs.bind (Runs.bind (Runs.bind (Runs.nextNone (rest := Samples.tourBytes.drop 148) ?_) Runs.pure)
        Runs.pure) Runs.pure)
      decide +kernel
    obtain ⟨l, e⟩ := h3 []
    refine (visits_as_ideal hv2 s []).imp id fun g => ?_
    rw [g, hs, hp, e]
  · have h3 : Runs (visits Samples.markCodec b [.skip]) Samples.tourHurt 110 (.ok ([(Samples.thirdNext, none)], false)) 142 :=
      Runs.bind h2 (Runs.bind Runs.pure Runs.pure)
    obtain ⟨l, e⟩ := h3 []
    refine (visits_as_ideal hv1 s []).imp id fun g => ?_
    rw [g, hs, hp, e]
  · have h4 : Fails (lfh b) Samples.tourHurt 142 := by
      refine Runs.bind_fails (Runs.readExact (data := Samples.tourHurt) (pos := 142) (n := 4) (b := [5, 0, 80, 75]) (by decide +kernel) rfl) fun log => ?_
      exact ⟨_, _, rfl⟩
    have h3 : Fails (visits Samples.markCodec b [.skip, .skip]) Samples.tourHurt 110 :=
      Runs.bind_fails h2 (Fails.bind (Fails.bind (Fails.bind (Fails.bind h4))))
    obtain ⟨y, s', e⟩ := h3 []
    refine (visits_as_ideal hv2 s []).imp id fun g => ⟨y, ?_⟩
    rw [g, hs, hp, e]

end AsyncZip
