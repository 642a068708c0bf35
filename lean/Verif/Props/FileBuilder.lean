import Verif.Spec.FileBuilder
import Verif.Props.Strings
import Verif.Samples.Programs
import Verif.Props.BehindOther
import Verif.Props.Own
/-!
# C111: readers made of a listing and a source
-/

namespace AsyncZip
open Spec Rd

/-- What is shown of listings and of builders alike. -/
def SoundListing (f : ZipFile) : Prop :=
  (Utf8Safe f.comment ∧ ∀ e ∈ f.entries, EntrySafe e.entry) ∧ ((f.entries = [] ∧ f.zip64 = false) ∨ Stems f)

theorem sound_new : SoundListing ZipFileBuilder.new.file :=
  ⟨⟨utf8Safe_of fun _ => rfl, fun _ h => by cases h⟩, Or.inl ⟨rfl, rfl⟩⟩

theorem sound_comment {f : ZipFile} (h : SoundListing f) (c : ZipString) (hc : Utf8Safe c) : SoundListing { f with comment := c } :=
  ⟨⟨hc, h.1.2⟩, h.2⟩

theorem sound_opened {b : Build} {s s' : RState} {f : ZipFile} (h : openFile b s = (.ok f, s')) : SoundListing f :=
  ⟨C11_opened_archive b s s' f h, Or.inr ⟨b, s, s', f, h, rfl, rfl⟩⟩

/-- C111. Every listing that safe code can come by has the entries of an archive that was opened, or none, and its strings are
what they say. -/
theorem C111_listing {f : ZipFile} (h : HasFile f) :
    (Utf8Safe f.comment ∧ ∀ e ∈ f.entries, EntrySafe e.entry) ∧ ((f.entries = [] ∧ f.zip64 = false) ∨ Stems f) :=
  HasFile.rec (motive_1 := fun b _ => SoundListing b.file) (motive_2 := fun f _ => SoundListing f) sound_new (fun _ ih => ih)
    (fun _ c hc ih => sound_comment ih c hc) (fun h => sound_opened h) (fun _ ih => ih) h

theorem callOpen_entries {f g : ZipFile} (h : f.entries = g.entries) (i : Nat) : callOpen f i = callOpen g i := by
  funext s
  unfold callOpen readerWithEntry
  rw [h]

theorem seekCall_entries (C : Codec) {f g : ZipFile} (h : f.entries = g.entries) (c : Call) (st : Option EntryReader × RState) :
    seekCall C f c st = seekCall C g c st := by
  obtain ⟨o, s⟩ := st
  cases c with
  | «open» i => exact congrFun (callOpen_entries h i) s
  | _ => cases o <;> rfl

theorem seekSession_entries (C : Codec) {f g : ZipFile} (h : f.entries = g.entries) (cs : List Call) :
    ∀ st, seekSession C f cs st = seekSession C g cs st := by
  induction cs with
  | nil => exact fun _ => rfl
  | cons c cs ih =>
    intro st
    unfold seekSession
    rw [seekCall_entries C h]
    simp only [ih]

theorem sharedRun_entries (C : Codec) (data : Bytes) {f g : ZipFile} (h : f.entries = g.entries) (cs : List SharedCall) :
    ∀ w, sharedRun C data f cs w = sharedRun C data g cs w := by
  have hc : ∀ c w, sharedCall C data f c w = sharedCall C data g c w := by
    intro c w
    unfold sharedCall
    cases c.call with
    | «open» i =>
      simp only
      rw [h, callOpen_entries h]
    | _ => rfl
  induction cs with
  | nil => exact fun _ => rfl
  | cons c cs ih =>
    intro w
    unfold sharedRun
    rw [hc]
    simp only [ih]

theorem built_all (cs : List ZipString) : ∀ b : ZipFileBuilder, (cs.foldl ZipFileBuilder.comment b).build =
    { entries := b.file.entries, zip64 := b.file.zip64, comment := cs.getLast?.getD b.file.comment } := by
  induction cs with
  | nil => exact fun _ => rfl
  | cons c cs ih =>
    intro b
    refine (ih (b.comment c)).trans ?_
    rw [List.getLast?_cons]
    rfl

/-- C111. A reader made with `from_raw_parts` of the listing of another, taken through the builder and given any comments, shows
exactly what that one does, of the same source and in the same state: seekable, in memory and over a path. Only the comment of the
archive is another: the last that was given. -/
theorem C111_rebuilt (C : Codec) (f : ZipFile) (comments : List ZipString) :
    (∀ cs st, seekSession C (comments.foldl ZipFileBuilder.comment (.ofFile f)).build cs st = seekSession C f cs st) ∧
    (∀ data cs w, sharedRun C data (comments.foldl ZipFileBuilder.comment (.ofFile f)).build cs w = sharedRun C data f cs w) ∧
    (∀ i, readerWithoutEntry (comments.foldl ZipFileBuilder.comment (.ofFile f)).build i = readerWithoutEntry f i) ∧
    (comments.foldl ZipFileBuilder.comment (.ofFile f)).build =
      { entries := f.entries, zip64 := f.zip64, comment := comments.getLast?.getD f.comment } := by
  have hall := built_all comments (.ofFile f)
  have h : (comments.foldl ZipFileBuilder.comment (.ofFile f)).build.entries = f.entries := by rw [hall]; rfl
  exact ⟨fun cs st => seekSession_entries C h cs st, fun data cs w => sharedRun_entries C data h cs w,
    fun i => by unfold readerWithoutEntry; rw [h], hall⟩

theorem session_empty (C : Codec) (f : ZipFile) (hf : f.entries = []) (cs : List Call) (s : RState) :
    seekSession C f cs (none, s) = (cs.map seesNone, (none, s)) := by
  induction cs with
  | nil => rfl
  | cons c cs ih =>
    have hc : seekCall C f c (none, s) = (seesNone c, none, s) := by
      cases c with
      | «open» i =>
        show callOpen f i s = _
        unfold callOpen readerWithEntry
        rw [hf]
        rfl
      | _ => rfl
    unfold seekSession
    rw [hc]
    simp only [ih]
    rfl

theorem shared_empty (C : Codec) (data : Bytes) (f : ZipFile) (hf : f.entries = []) (cs : List SharedCall) :
    sharedRun C data f cs World.empty = cs.map fun c => (c.user, seesNone c.call) := by
  induction cs with
  | nil => rfl
  | cons c cs ih =>
    have hc : sharedCall C data f c World.empty = (seesNone c.call, World.empty) := by
      unfold sharedCall
      cases c.call with
      | «open» i =>
        simp only [hf, List.getElem?_nil, if_true]
        refine Prod.ext rfl (funext fun u => ?_)
        simp only [World.set, World.empty, ite_self]
      | _ => rfl
    unfold sharedRun
    rw [hc]
    simp only [ih]
    rfl

/-- C111. With a listing from a new builder, whatever comments it was given, a reader refuses every index and leaves the source
alone; so does every user of a shared one, over whatever data. -/
theorem C111_empty (C : Codec) (comments : List ZipString) :
    (∀ cs s, seekSession C (comments.foldl ZipFileBuilder.comment .new).build cs (none, s) = (cs.map seesNone, (none, s))) ∧
    (∀ data cs, sharedRun C data (comments.foldl ZipFileBuilder.comment .new).build cs World.empty =
      cs.map fun c => (c.user, seesNone c.call)) :=
  have h : (comments.foldl ZipFileBuilder.comment .new).build.entries = [] := by rw [built_all]; rfl
  ⟨session_empty C _ h, fun data => shared_empty C data _ h⟩

theorem window_front {a : Bytes} {off m n : Nat} (h : off + m ≤ n) : window (a.take n) off m = window a off m := by
  unfold window
  rw [List.drop_take, List.take_take, Nat.min_eq_left (by omega)]

theorem sameRegion_take {a b : Bytes} {n : Nat} {e : StoredZipEntry} (hab : a.take n = b.take n) (h : regionEnd a e ≤ n) :
    SameRegion a b e := by
  unfold regionEnd at h
  simp only [SameRegion]
  rw [← window_front (a := a) (n := n) (by omega), hab, window_front (by omega)]

/-- C111. A listing that was kept is good for every source that agrees with the archive up to the end of the entries that are opened:
one whose directory is gone, was overwritten, or was replaced when the archive was added to. -/
theorem C111_kept (C : Codec) (f : ZipFile) (a b : Bytes) (n : Nat) (hab : a.take n = b.take n) :
    (∀ cs pos sched, (∀ i, .open i ∈ cs → ∀ e, f.entries[i]? = some e → regionEnd a e ≤ n) →
      (seekSession C f cs (none, ⟨b, pos, sched, []⟩)).1 = (seekSession C f cs (none, ⟨a, pos, sched, []⟩)).1) ∧
    (∀ cs, (∀ i, ∀ c ∈ cs, c.call = .open i → ∀ e, f.entries[i]? = some e → regionEnd a e ≤ n) →
      sharedRun C b f cs World.empty = sharedRun C a f cs World.empty) :=
  ⟨fun cs pos sched h => (C51_seekable C f cs a b pos sched fun i hi e he => SameRegion.same (sameRegion_take hab (h i hi e he))).symm,
    fun cs h => (C51_shared C f cs a b fun i c hc ho e he => SameRegion.same (sameRegion_take hab (h i c hc ho e he))).symm⟩

/-- A new builder given a comment, then one made of it again and given another. -/
example : HasFile ((ZipFileBuilder.ofFile (ZipFileBuilder.new.comment (ZipString.new [99] .utf8)).build).comment
    (ZipString.new [0xFF] .utf8)).build :=
  .built (.comment (.ofFile (.built (.comment .new _ (utf8Safe_new _ _)))) _ (utf8Safe_new _ _))

/-- A listing with an entry: of an archive that was opened, with another comment. -/
example : ∃ f : ZipFile, HasFile f ∧ f.entries ≠ [] ∧ f.comment = ZipString.new [99] .utf8 := by
  obtain ⟨_, h⟩ := Samples.both_open ⟨true, 64⟩ (by decide) 0 []
  exact ⟨_, .built (.comment (.ofFile (.opened h)) (ZipString.new [99] .utf8) (utf8Safe_new _ _)), (by intro h; cases h), rfl⟩

example := (C111_empty Samples.markCodec [ZipString.new [99] .utf8]).1 [.open 0, .read 5, .open 3] ⟨[1, 2, 3], 0, none, []⟩
example := (C111_empty Samples.markCodec [ZipString.new [99] .utf8]).2 [1, 2, 3] [⟨1, .open 0, none, none⟩, ⟨2, .read 5, none, none⟩]

/-- The directory and the end record of the first of two archives are gone, and the second with them: its file is read all the same. -/
example : (seekSession Samples.markCodec Samples.earlierFile [.open 0, .readToEnd 9] (none, ⟨Samples.earlierBytes.take 33, 0, none, []⟩)).1 =
    (seekSession Samples.markCodec Samples.earlierFile [.open 0, .readToEnd 9] (none, ⟨Samples.earlierBytes, 0, none, []⟩)).1 := by
  refine (C111_kept _ _ _ _ 33 (by decide +kernel)).1 _ 0 none fun i hi e he => ?_
  have : i = 0 := by simpa using hi
  subst this
  cases he
  decide +kernel

end AsyncZip
