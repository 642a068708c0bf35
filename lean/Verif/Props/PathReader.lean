import Verif.Spec.PathReader
import Verif.Props.Own
/-!
# A path reader whose file is replaced

C106.
-/

namespace AsyncZip
open Spec Rd

/-- C106. Every user of a path reader sees what they would see alone, whatever is put at the path meanwhile. -/
theorem C106_isolation (C : Codec) (f : ZipFile) (cs : List PathCall) (u : Nat) :
    ∀ w w' : World, w u = w' u → seenBy u (pathRun C f cs w) = seenBy u (pathRun C f (byUser u cs) w') := by
  induction cs with
  | nil => intro w w' h; rfl
  | cons c cs ih =>
    intro w w' h
    by_cases hc : c.call.user = u
    · subst hc
      obtain ⟨h1, h2⟩ := sharedCall_own C c.now f c.call w w' h
      have ih := ih _ _ h2
      simp only [seenBy, byUser] at ih ⊢
      simp only [pathRun, List.filter_cons, decide_true, if_true, List.map_cons, h1, ih]
    · have h2 : (sharedCall C c.now f c.call w).2 u = w' u := by
        rw [sharedCall_other C c.now f c.call w u (fun e => hc e.symm), h]
      have ih := ih _ _ h2
      simp only [seenBy, byUser] at ih ⊢
      simp only [pathRun, List.filter_cons, hc, decide_false, Bool.false_eq_true, if_false, ih]

/-- C106. Only what is at the path at the moment an entry is opened matters: entries that are open are read from the files that they were
opened in. -/
theorem C106_when_opened (C : Codec) (f : ZipFile) {cs cs' : List PathCall} (h : List.Forall₂ SameWhenOpened cs cs') :
    ∀ w : World, pathRun C f cs w = pathRun C f cs' w := by
  induction h with
  | nil => intro w; rfl
  | @cons c c' cs cs' hc _ ih =>
    intro w
    have key : sharedCall C c.now f c.call w = sharedCall C c'.now f c'.call w := by
      rw [← hc.call]
      by_cases ho : Opening c.call
      · rw [hc.now ho]
      · unfold sharedCall
        cases hcall : c.call.call with
        | «open» i => exact absurd ⟨i, hcall⟩ ho
        | read n => rfl
        | readToEnd n => rfl
        | computeHash => rfl
    simp only [pathRun]
    rw [key, hc.call, ih]

/-- What a user has at the same time in two runs: the same, but over another file that agrees in all that is still to be read. -/
def Kept (o o' : Option (EntryReader × RState)) : Prop :=
  (o = none ∧ o' = none) ∨ ∃ er s b, o = some (er, s) ∧ o' = some (er, RState.on s b) ∧ AsyncZip.Agrees er s b

/-- C106. If the files that are found agree with the one that the listing is of, in the data of the entries that are opened and in the
signature and the two lengths of their local headers, nobody notices that they are others. -/
theorem C106_unnoticed (C : Codec) (f : ZipFile) (a : Bytes) (cs : List PathCall)
    (h : ∀ i, ∀ c ∈ cs, c.call.call = .open i → ∀ e, f.entries[i]? = some e → SameData a c.now e) :
    pathRun C f cs World.empty = sharedRun C a f (cs.map PathCall.call) World.empty := by
  suffices H : ∀ (cs : List PathCall) (w w' : World),
      (∀ i, ∀ c ∈ cs, c.call.call = .open i → ∀ e, f.entries[i]? = some e → SameData a c.now e) →
      (∀ u, Kept (w u) (w' u)) → pathRun C f cs w' = sharedRun C a f (cs.map PathCall.call) w by
    exact H cs _ _ h (fun _ => Or.inl ⟨rfl, rfl⟩)
  intro cs
  induction cs with
  | nil => intro w w' _ _; rfl
  | cons c cs ih =>
    intro w w' hc hw
    suffices H : (sharedCall C a f c.call w).1 = (sharedCall C c.now f c.call w').1 ∧
        ∀ u, Kept ((sharedCall C a f c.call w).2 u) ((sharedCall C c.now f c.call w').2 u) by
      obtain ⟨h1, h2⟩ := H
      show (c.call.user, (sharedCall C c.now f c.call w').1) :: _ = (c.call.user, (sharedCall C a f c.call w).1) :: _
      rw [h1]
      congr 1
      exact ih _ _ (fun i x hx => hc i x (List.mem_cons_of_mem _ hx)) h2
    have put : ∀ o o', Kept o o' → ∀ u, Kept ((w.set c.call.user o) u) ((w'.set c.call.user o') u) := by
      intro o o' ho u
      unfold World.set
      split
      · exact ho
      · exact hw u
    have clear := put none none (Or.inl ⟨rfl, rfl⟩)
    have reading : ∀ call : Call, (useReader C call c.call.user w).1 = (useReader C call c.call.user w').1 ∧
        ∀ u, Kept ((useReader C call c.call.user w).2 u) ((useReader C call c.call.user w').2 u) := by
      intro call
      unfold useReader
      rcases hw c.call.user with ⟨h1, h2⟩ | ⟨er, s, b, h1, h2, h3⟩
      · rw [h1, h2]
        exact ⟨rfl, hw⟩
      · rw [h1, h2]
        have := callReader_on (C := C) (c := call) h3
        simp only
        rw [this.1]
        obtain ⟨-, hag⟩ := this
        generalize callReader C er call s = x at *
        obtain ⟨seen, o, s'⟩ := x
        cases o with
        | none => exact ⟨rfl, clear⟩
        | some er => exact ⟨rfl, put _ _ (Or.inr ⟨_, _, b, rfl, rfl, hag er rfl⟩)⟩
    unfold sharedCall
    cases hcall : c.call.call with
    | «open» i =>
      simp only []
      split
      · exact ⟨rfl, clear⟩
      · split
        · exact ⟨rfl, clear⟩
        · have := callOpen_on (f := f) (i := i) (s := ⟨a, 0, c.call.sched, []⟩) (b := c.now)
            fun e he => hc i c List.mem_cons_self hcall e he
          rw [show callOpen f i ⟨c.now, 0, c.call.sched, []⟩ = _ from this.1]
          obtain ⟨-, hag⟩ := this
          generalize callOpen f i ⟨a, 0, c.call.sched, []⟩ = x at *
          obtain ⟨seen, o, s'⟩ := x
          cases o with
          | none => exact ⟨rfl, clear⟩
          | some er => exact ⟨rfl, put _ _ (Or.inr ⟨_, _, c.now, rfl, rfl, hag er rfl⟩)⟩
    | read n => exact reading (.read n)
    | readToEnd n => exact reading (.readToEnd n)
    | computeHash => exact reading (.computeHash)

theorem pathRun_reads (C : Codec) (f : ZipFile) (u : Nat) : ∀ (rest : List PathCall) (w : World) (st : Option EntryReader × RState),
    (∀ c ∈ rest, c.call.user = u ∧ ¬ Opening c.call) → w u = st.1.map (fun er => (er, st.2)) →
    (pathRun C f rest w).map Prod.snd = (seekSession C f (rest.map fun c => c.call.call) st).1
  | [], _, _, _, _ => rfl
  | c :: cs, w, st, hr, hw => by
    obtain ⟨hu, ho⟩ := hr c List.mem_cons_self
    obtain ⟨o, s⟩ := st
    have key : (sharedCall C c.now f c.call w).1 = (seekCall C f c.call.call (o, s)).1 ∧
        (sharedCall C c.now f c.call w).2 u =
          (seekCall C f c.call.call (o, s)).2.1.map fun er => (er, (seekCall C f c.call.call (o, s)).2.2) := by
      have hw : w c.call.user = o.map fun er => (er, s) := by rw [hu]; exact hw
      have reading : ∀ call : Call, (useReader C call c.call.user w).1 = (match o with
            | none => ((.nothing, none, s) : Seen × Option EntryReader × RState)
            | some er => callReader C er call s).1 ∧
          (useReader C call c.call.user w).2 c.call.user = (match o with
            | none => ((.nothing, none, s) : Seen × Option EntryReader × RState)
            | some er => callReader C er call s).2.1.map fun er => (er, (match o with
            | none => ((.nothing, none, s) : Seen × Option EntryReader × RState)
            | some er => callReader C er call s).2.2) := by
        intro call
        unfold useReader
        rw [hw]
        cases o with
        | none => exact ⟨rfl, hw⟩
        | some er =>
          simp only [Option.map_some]
          generalize callReader C er call s = x
          obtain ⟨seen, o, s'⟩ := x
          cases o with
          | none => exact ⟨rfl, by simp [World.set]⟩
          | some er => exact ⟨rfl, by simp [World.set]⟩
      rw [← hu]
      unfold sharedCall
      cases hcall : c.call.call with
      | «open» i => exact absurd ⟨i, hcall⟩ ho
      | read n => cases o <;> exact reading (.read n)
      | readToEnd n => cases o <;> exact reading (.readToEnd n)
      | computeHash => cases o <;> exact reading (.computeHash)
    have ih := pathRun_reads C f u cs (sharedCall C c.now f c.call w).2 (seekCall C f c.call.call (o, s)).2
      (fun x hx => hr x (List.mem_cons_of_mem _ hx)) key.2
    simp only [pathRun, List.map_cons, seekSession]
    rw [key.1, ih]

/-- C106. From the moment an entry is opened, and until the user opens another one, they see exactly what a seekable reader with the
listing sees in the file that was there at that moment. -/
theorem C106_session (C : Codec) (f : ZipFile) (u i : Nat) (sched : Option (List RdResp)) (now : Bytes) (rest : List PathCall) (w : World)
    (h : ∀ c ∈ rest, c.call.user = u ∧ ¬ Opening c.call) :
    (pathRun C f (⟨⟨u, .open i, sched, none⟩, now⟩ :: rest) w).map Prod.snd =
      (seekSession C f (.open i :: rest.map fun c => c.call.call) (none, ⟨now, 0, sched, []⟩)).1 := by
  have key : (sharedCall C now f ⟨u, .open i, sched, none⟩ w).1 = (callOpen f i ⟨now, 0, sched, []⟩).1 ∧
      (sharedCall C now f ⟨u, .open i, sched, none⟩ w).2 u =
        (callOpen f i ⟨now, 0, sched, []⟩).2.1.map fun er => (er, (callOpen f i ⟨now, 0, sched, []⟩).2.2) := by
    unfold sharedCall
    simp only
    split
    · rename_i hn
      unfold callOpen readerWithEntry
      rw [hn]
      exact ⟨rfl, by simp [World.set]⟩
    · generalize callOpen f i ⟨now, 0, sched, []⟩ = x
      obtain ⟨seen, o, s'⟩ := x
      cases o with
      | none => exact ⟨rfl, by simp [World.set]⟩
      | some er => exact ⟨rfl, by simp [World.set]⟩
  simp only [pathRun, List.map_cons, seekSession, seekCall]
  rw [key.1, pathRun_reads C f u rest _ _ h key.2]

/-- C106. Asking for the checksum after reading tells whether it is the data that the listing is about, as far as a checksum can: what is
shown of the entry comes from the listing, also when the file is another one, and the checksum is that of the bytes that were read. -/
theorem C106_checksum (C : Codec) (f : ZipFile) (cs : List PathCall) (w : World) (u i chunk : Nat) (sched : Option (List RdResp))
    (now : Bytes) (x y : PathCall) (e : ZipEntry) (b : Bytes) (h : UInt32) (hc : 0 < chunk)
    (hcs : byUser u cs = [⟨⟨u, .open i, sched, none⟩, now⟩, x, y]) (hx : x.call.call = .readToEnd chunk) (hy : y.call.call = .computeHash)
    (hs : seenBy u (pathRun C f cs w) = [.opened e, .bytes b, .hash h]) :
    (f.entries[i]?.map fun z => z.entry) = some e ∧ h = crc32 b := by
  have hmem : ∀ c ∈ [x, y], c.call.user = u ∧ ¬ Opening c.call := by
    intro c hm
    have hu : c.call.user = u := by
      have : c ∈ byUser u cs := by rw [hcs]; exact List.mem_cons_of_mem _ hm
      simpa using (List.mem_filter.1 this).2
    refine ⟨hu, ?_⟩
    rintro ⟨j, hj⟩
    rcases List.mem_cons.1 hm with rfl | hm
    · rw [hx] at hj; cases hj
    · cases List.mem_singleton.1 hm
      rw [hy] at hj; cases hj
  rw [C106_isolation C f cs u w w rfl, hcs] at hs
  have hall : ∀ z ∈ pathRun C f [⟨⟨u, .open i, sched, none⟩, now⟩, x, y] w, z.1 = u := by
    simp only [pathRun, List.forall_mem_cons]
    exact ⟨trivial, (hmem x List.mem_cons_self).1, (hmem y (List.mem_cons_of_mem _ List.mem_cons_self)).1, fun _ h => by cases h⟩
  unfold seenBy at hs
  rw [List.filter_eq_self.2 (fun z hz => by simpa using hall z hz), C106_session C f u i sched now [x, y] w hmem] at hs
  simp only [List.map_cons, List.map_nil, hx, hy, seekSession, seekCall] at hs
  unfold callOpen at hs
  cases hr : readerWithEntry f i ⟨now, 0, sched, []⟩ with
  | mk r s1 =>
    rw [hr] at hs
    cases r with
    | error z => simp at hs
    | ok z =>
      obtain ⟨er, e'⟩ := z
      simp only [callReader] at hs
      cases hq : er.readToEnd C chunk s1 with
      | mk r s2 =>
        rw [hq] at hs
        cases r with
        | error z => simp at hs
        | ok z =>
          obtain ⟨b', er'⟩ := z
          simp only [List.cons.injEq, Seen.opened.injEq, Seen.bytes.injEq, Seen.hash.injEq, and_true] at hs
          obtain ⟨rfl, rfl, rfl⟩ := hs
          obtain ⟨_, _, _, _, g⟩ := readToEnd_ok hc hq
          unfold readerWithEntry at hr
          cases hf : f.entries[i]? with
          | none => rw [hf] at hr; cases hr
          | some en =>
            rw [hf] at hr
            replace hr := bind_ok_iff.1 hr
            obtain ⟨_, _, _, hr⟩ := hr
            simp only [pure_def, Prod.mk.injEq, Except.ok.injEq] at hr
            obtain ⟨⟨rfl, rfl⟩, _⟩ := hr
            exact ⟨rfl, by rw [show er'.computeHash.1 = er'.hasher.finalize from rfl, g]; rfl⟩

/-- A file that begins as the sample archive up to the data of its entry, and goes on with other data and anything else. -/
def Samples.replaced (x y : UInt8) (t : Bytes) : Bytes := Samples.one.take 41 ++ x :: y :: t

theorem Samples.replaced_session (x y : UInt8) (t : Bytes) :
    (seekSession Samples.lengthCodec Samples.oneFile [.open 0, .readToEnd 9, .computeHash] (none, ⟨Samples.replaced x y t, 0, none, []⟩)).1 =
      [.opened Samples.oneFile.entries[0].entry, .bytes [x, y], .hash (crc32 [x, y])] := by
  have h1 : Runs (seekToDataOffset Samples.oneFile.entries[0]) (Samples.replaced x y t) 0 (.ok ()) 41 := by
    refine Runs.bind Runs.seekStart (Runs.bind (pos1 := 4) (Runs.readExact (b := Samples.one.take 4) rfl rfl)
      (Runs.ite_pos (by decide) ?_))
    refine Runs.bind (pos1 := 30) (Runs.bind (Runs.readExact (b := (Samples.one.drop 4).take 26) rfl rfl) Runs.pure) ?_
    exact Runs.bind (a := 41) (pos1 := 41) Runs.seekForward Runs.pure
  obtain ⟨l, h⟩ := h1 []
  have h2 : callOpen Samples.oneFile 0 ⟨Samples.replaced x y t, 0, none, []⟩ = (.opened Samples.oneFile.entries[0].entry,
      some (EntryReader.new .stored 2), ⟨Samples.replaced x y t, 41, none, l⟩) := by
    unfold callOpen readerWithEntry
    rw [show Samples.oneFile.entries[0]? = some Samples.oneFile.entries[0] from rfl]
    simp only
    rw [bind_of_ok h]
    rfl
  have h3 : (EntryReader.new .stored 2).readToEnd Samples.lengthCodec 9 ⟨Samples.replaced x y t, 41, none, l⟩
      = (.ok ([x, y], ⟨.stored, 0, none, Hasher.new.update [x, y]⟩), ⟨Samples.replaced x y t, 43, none, l ++ [.read 41 2]⟩) :=
    (readLoop_step rfl (by simp)).trans (readLoop_stop rfl)
  simp only [seekSession, seekCall, h2, callReader, h3]
  rfl

/-- C106 in full does not hold: whoever does not compare the checksum does not notice. Here, the listing is that of the sample archive, and
any two bytes in the place of its data are given as the data of its entry, whatever follows. -/
theorem C106_replaced_fails (x y : UInt8) (t : Bytes) (w : World) :
    (pathRun Samples.lengthCodec Samples.oneFile [⟨⟨1, .open 0, none, none⟩, Samples.replaced x y t⟩,
      ⟨⟨1, .readToEnd 9, none, none⟩, []⟩, ⟨⟨1, .computeHash, none, none⟩, []⟩] w).map Prod.snd =
      [.opened Samples.oneFile.entries[0].entry, .bytes [x, y], .hash (crc32 [x, y])] := by
  refine (C106_session Samples.lengthCodec Samples.oneFile 1 0 none (Samples.replaced x y t) _ w ?_).trans
    (Samples.replaced_session x y t)
  simp only [List.forall_mem_cons]
  exact ⟨⟨trivial, fun ⟨_, h⟩ => by cases h⟩, ⟨trivial, fun ⟨_, h⟩ => by cases h⟩, fun _ h => by cases h⟩

/-- C106, two users: the file is replaced after the first has opened the entry and before the second has. The first still reads what was
there; the second, what is there now, and can tell by the checksum. -/
example (w : World) : ∃ cs : List PathCall,
    seenBy 1 (pathRun Samples.lengthCodec Samples.oneFile cs w) =
      [.opened Samples.oneFile.entries[0].entry, .bytes [104, 105], .hash (crc32 [104, 105])] ∧
    seenBy 2 (pathRun Samples.lengthCodec Samples.oneFile cs w) =
      [.opened Samples.oneFile.entries[0].entry, .bytes [7, 8], .hash (crc32 [7, 8])] ∧
    Samples.oneFile.entries[0].entry.crc32 = crc32 [104, 105] ∧ crc32 [7, 8] ≠ crc32 [104, 105] := by
  refine ⟨[⟨⟨1, .open 0, none, none⟩, Samples.replaced 104 105 []⟩, ⟨⟨2, .open 0, none, none⟩, Samples.replaced 7 8 [9]⟩,
    ⟨⟨1, .readToEnd 9, none, none⟩, Samples.replaced 7 8 [9]⟩, ⟨⟨2, .readToEnd 9, none, none⟩, []⟩,
    ⟨⟨2, .computeHash, none, none⟩, []⟩, ⟨⟨1, .computeHash, none, none⟩, []⟩], ?_, ?_, by decide +kernel, by decide +kernel⟩
  · rw [C106_isolation _ _ _ 1 w w rfl]
    refine Eq.trans ?_ ((C106_session Samples.lengthCodec Samples.oneFile 1 0 none (Samples.replaced 104 105 [])
      [⟨⟨1, .readToEnd 9, none, none⟩, Samples.replaced 7 8 [9]⟩, ⟨⟨1, .computeHash, none, none⟩, []⟩] w ?_).trans
      (Samples.replaced_session 104 105 []))
    · rfl
    · simp only [List.forall_mem_cons]
      exact ⟨⟨trivial, fun ⟨_, h⟩ => by cases h⟩, ⟨trivial, fun ⟨_, h⟩ => by cases h⟩, fun _ h => by cases h⟩
  · rw [C106_isolation _ _ _ 2 w w rfl]
    refine Eq.trans ?_ ((C106_session Samples.lengthCodec Samples.oneFile 2 0 none (Samples.replaced 7 8 [9])
      [⟨⟨2, .readToEnd 9, none, none⟩, []⟩, ⟨⟨2, .computeHash, none, none⟩, []⟩] w ?_).trans
      (Samples.replaced_session 7 8 [9]))
    · rfl
    · simp only [List.forall_mem_cons]
      exact ⟨⟨trivial, fun ⟨_, h⟩ => by cases h⟩, ⟨trivial, fun ⟨_, h⟩ => by cases h⟩, fun _ h => by cases h⟩

/-- C106, unnoticed: files that end otherwise after the only entry of the sample archive, a new one for every call. -/
example (C : Codec) (cs : List (SharedCall × Bytes)) :
    pathRun C Samples.oneFile (cs.map fun c => ⟨c.1, Samples.one.take 43 ++ c.2⟩) World.empty =
      sharedRun C Samples.one Samples.oneFile (cs.map Prod.fst) World.empty := by
  refine (C106_unnoticed C Samples.oneFile Samples.one _ fun i c hc _ e he => ?_).trans (by rw [List.map_map]; rfl)
  obtain ⟨⟨c, x⟩, _, rfl⟩ := List.mem_map.1 hc
  obtain rfl : Samples.oneFile.entries[0] = e := by
    cases i with
    | zero => exact Option.some.inj he
    | succ i => cases he
  refine SameRegion.same ?_
  show window _ 0 _ = window _ 0 _
  simp only [show Samples.oneFile.entries[0].fileOffset = 0 from rfl,
    show 30 + fieldAt Samples.one (0 + 26) 2 + fieldAt Samples.one (0 + 28) 2 +
      Samples.oneFile.entries[0].entry.compressedSize.toNat = 43 by decide +kernel, window, List.drop_zero]
  rw [List.take_append_of_le_length (by decide), List.take_take, Nat.min_self]

end AsyncZip
