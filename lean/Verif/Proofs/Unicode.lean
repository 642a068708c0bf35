import Verif.Spec.Names
import Verif.Proofs.ReadBack
import Verif.Proofs.Utf8
/-!
# Info-ZIP unicode fields and the texts they carry
-/

namespace AsyncZip
open Spec

theorem Constructed.safe {n : ZipString} (h : Constructed n) :
    (n.encoding = .utf8 → utf8Valid n.raw = true) ∧ (n.encoding = .raw → n.alternative = none) := by
  cases h with
  | new raw enc =>
    refine ⟨fun h => ?_, fun _ => rfl⟩
    cases enc with
    | raw => cases h
    | utf8 =>
      unfold ZipString.new at h ⊢
      simp only at h ⊢
      split at h
      · assumption
      · cases h
  | alternative u a => exact ⟨fun _ => u.valid, fun h => by cases h⟩
  | ofString s => exact ⟨fun _ => s.valid, fun h => by cases h⟩

theorem asStr_ok {n : ZipString} {t : Bytes} (h : n.asStr = .ok t) : n.encoding = .utf8 ∧ t = n.raw := by
  unfold ZipString.asStr at h
  split at h
  · rename_i he; cases h; exact ⟨he, rfl⟩
  · cases h

theorem ascii_iff (b : Bytes) : isAscii b = true ↔ ¬ ∃ x ∈ b, 128 ≤ x.toNat := by
  unfold isAscii
  rw [List.all_eq_true]
  constructor
  · intro h ⟨x, hx, hn⟩
    have := h x hx
    simp only [decide_eq_true_eq, UInt8.lt_iff_toNat_lt] at this
    have e : (128 : UInt8).toNat = 128 := rfl
    omega
  · intro h x hx
    rw [decide_eq_true_eq, UInt8.lt_iff_toNat_lt]
    have e : (128 : UInt8).toNat = 128 := rfl
    rw [e]
    exact Nat.lt_of_not_le fun hn => h ⟨x, hx, hn⟩

/-! ## Unicode fields of one kind -/

/-- As `findUnicodePath`. -/
def findInfo (basic : Bytes) (is : List InfoZipField) : Option Bytes :=
  is.findSome? fun
    | .v1 crc unicode => if crc = crc32 basic then some unicode else none
    | _ => none

/-- As `putUnicodePath`. -/
def putInfo (crc : UInt32) (unicode : Bytes) : List InfoZipField → List InfoZipField
  | [] => [.v1 crc unicode]
  | .v1 _ _ :: is => .v1 crc unicode :: is
  | .unknown v d :: is => .unknown v d :: is

/-- As `withPath`. -/
def withInfo (n : ZipString) (is : List InfoZipField) : List InfoZipField :=
  match n.encoding with
  | .utf8 => if n.raw.isEmpty then is else putInfo (crc32 n.basic) n.raw is
  | .raw => is

def asPath : ExtraField → Option InfoZipField
  | .unicodePath i => some i
  | _ => none

def asComment : ExtraField → Option InfoZipField
  | .unicodeComment i => some i
  | _ => none

theorem mem_asPath {fs : List ExtraField} {i : InfoZipField} : i ∈ fs.filterMap asPath ↔ .unicodePath i ∈ fs := by
  rw [List.mem_filterMap]
  constructor
  · rintro ⟨f, hf, h⟩
    cases f <;> cases h
    exact hf
  · exact fun h => ⟨_, h, rfl⟩

theorem mem_asComment {fs : List ExtraField} {i : InfoZipField} : i ∈ fs.filterMap asComment ↔ .unicodeComment i ∈ fs := by
  rw [List.mem_filterMap]
  constructor
  · rintro ⟨f, hf, h⟩
    cases f <;> cases h
    exact hf
  · exact fun h => ⟨_, h, rfl⟩

theorem find_asPath (n : Bytes) (fs : List ExtraField) : findUnicodePath n fs = findInfo n (fs.filterMap asPath) := by
  unfold findUnicodePath findInfo
  induction fs with
  | nil => rfl
  | cons f fs ih =>
    cases f with
    | unicodePath i =>
      rw [show (ExtraField.unicodePath i :: fs).filterMap asPath = i :: fs.filterMap asPath from rfl, List.findSome?_cons,
        List.findSome?_cons, ih]
      cases i <;> rfl
    | _ => rw [List.filterMap_cons_none rfl, List.findSome?_cons, ih]

theorem find_asComment (n : Bytes) (fs : List ExtraField) :
    findUnicodeComment n fs = findInfo n (fs.filterMap asComment) := by
  unfold findUnicodeComment findInfo
  induction fs with
  | nil => rfl
  | cons f fs ih =>
    cases f with
    | unicodeComment i =>
      rw [show (ExtraField.unicodeComment i :: fs).filterMap asComment = i :: fs.filterMap asComment from rfl, List.findSome?_cons,
        List.findSome?_cons, ih]
      cases i <;> rfl
    | _ => rw [List.filterMap_cons_none rfl, List.findSome?_cons, ih]

theorem asPath_putPath (c : UInt32) (u : Bytes) (fs : List ExtraField) :
    (putUnicodePath c u fs).filterMap asPath = putInfo c u (fs.filterMap asPath) := by
  induction fs with
  | nil => rfl
  | cons f fs ih =>
    cases f with
    | unicodePath i => cases i <;> rfl
    | _ => exact ih

theorem asComment_putComment (c : UInt32) (u : Bytes) (fs : List ExtraField) :
    (putUnicodeComment c u fs).filterMap asComment = putInfo c u (fs.filterMap asComment) := by
  induction fs with
  | nil => rfl
  | cons f fs ih =>
    cases f with
    | unicodeComment i => cases i <;> rfl
    | _ => exact ih

theorem asPath_putComment (c : UInt32) (u : Bytes) (fs : List ExtraField) :
    (putUnicodeComment c u fs).filterMap asPath = fs.filterMap asPath := by
  induction fs with
  | nil => rfl
  | cons f fs ih =>
    cases f with
    | unicodeComment i => cases i <;> rfl
    | unicodePath i => exact congrArg (i :: ·) ih
    | _ => exact ih

theorem asComment_putPath (c : UInt32) (u : Bytes) (fs : List ExtraField) :
    (putUnicodePath c u fs).filterMap asComment = fs.filterMap asComment := by
  induction fs with
  | nil => rfl
  | cons f fs ih =>
    cases f with
    | unicodePath i => cases i <;> rfl
    | unicodeComment i => exact congrArg (i :: ·) ih
    | _ => exact ih

theorem asPath_withUnicode (e : ZipEntry) (fs : List ExtraField) :
    (withUnicode e fs).filterMap asPath =
      if bothUtf8 e then fs.filterMap asPath else withInfo e.filename (fs.filterMap asPath) := by
  unfold withUnicode
  split
  · rfl
  · have h : ∀ gs, (withComment e.comment gs).filterMap asPath = gs.filterMap asPath := by
      intro gs
      unfold withComment
      split
      · split
        · rfl
        · exact asPath_putComment _ _ _
      · rfl
    rw [h]
    unfold withPath withInfo
    cases e.filename.encoding with
    | raw => rfl
    | utf8 =>
      simp only
      split
      · rfl
      · exact asPath_putPath _ _ _

theorem asComment_withUnicode (e : ZipEntry) (fs : List ExtraField) :
    (withUnicode e fs).filterMap asComment =
      if bothUtf8 e then fs.filterMap asComment else withInfo e.comment (fs.filterMap asComment) := by
  unfold withUnicode
  split
  · rfl
  · have h : ∀ gs, (withPath e.filename gs).filterMap asComment = gs.filterMap asComment := by
      intro gs
      unfold withPath
      split
      · split
        · rfl
        · exact asComment_putPath _ _ _
      · rfl
    rw [← h fs]
    unfold withComment withInfo
    cases e.comment.encoding with
    | raw => rfl
    | utf8 =>
      simp only
      split
      · rfl
      · exact asComment_putComment _ _ _

/-! ## What comes back -/

theorem findInfo_mem {basic u : Bytes} {is : List InfoZipField} (h : findInfo basic is = some u) :
    .v1 (crc32 basic) u ∈ is := by
  obtain ⟨i, hi, h⟩ := List.exists_of_findSome?_eq_some h
  cases i with
  | v1 crc t =>
    simp only at h
    split at h
    · rename_i hc
      cases h
      rw [← hc]
      exact hi
    · cases h
  | unknown v d => cases h

theorem findInfo_none {basic : Bytes} {is : List InfoZipField} (h : findInfo basic is = none) (u : Bytes) :
    .v1 (crc32 basic) u ∉ is := by
  intro hm
  have := List.findSome?_eq_none_iff.1 h _ hm
  simp at this

theorem utf8_of_ascii {b : Bytes} (h : isAscii b = true) : ZipString.new b .utf8 = ⟨.utf8, b, none⟩ := by
  unfold ZipString.new
  simp only
  rw [if_pos (utf8Valid_of_ascii _ h)]

theorem detectFallback_constructed (basic : Bytes) (u : Option Bytes) : Constructed (detectFallback basic u) := by
  unfold detectFallback
  have hp : Constructed (if isAscii basic = true then ({ encoding := .utf8, raw := basic, alternative := none } : ZipString)
      else ZipString.new basic .raw) := by
    split
    · rename_i h
      rw [← utf8_of_ascii h]
      exact .new _ _
    · exact .new _ _
  cases u with
  | none => exact hp
  | some u =>
    simp only
    split
    · exact .alternative _ _
    · exact hp

theorem detectFilename_constructed (basic : Bytes) (flag : Bool) (fs : List ExtraField) :
    Constructed (detectFilename basic flag fs) := by
  unfold detectFilename
  split
  · exact .new _ _
  · exact detectFallback_constructed _ _

theorem detectComment_constructed (basic : Bytes) (flag : Bool) (fs : List ExtraField) :
    Constructed (detectComment basic flag fs) := by
  unfold detectComment
  split
  · exact .new _ _
  · exact detectFallback_constructed _ _

theorem detectFallback_basic (basic : Bytes) (u : Option Bytes) :
    (detectFallback basic u).alternative.getD (detectFallback basic u).raw = basic := by
  unfold detectFallback
  cases u with
  | none => simp only; split <;> rfl
  | some u =>
    simp only
    split
    · rfl
    · split <;> rfl

/-- The text as it is read back. -/
def textRead (both : Bool) (n : ZipString) (is : List InfoZipField) : ZipString :=
  if both then ZipString.new n.basic .utf8 else detectFallback n.basic (findInfo n.basic (withInfo n is))

theorem text_kept {n : ZipString} (hn : Constructed n) {both : Bool} (hb : both = true → n.isUtf8WithoutAlternative = true)
    {is : List InfoZipField} (his : ∀ i ∈ is, Agrees n i) :
    SameText n (textRead both n is) ∧
      ∀ i ∈ (if both then is else withInfo n is), Agrees (textRead both n is) i := by
  obtain ⟨enc, raw, alt⟩ := n
  obtain ⟨g1, g2⟩ := Constructed.safe hn
  unfold textRead
  cases both with
  | true =>
    have hb := hb rfl
    unfold ZipString.isUtf8WithoutAlternative at hb
    rw [Bool.and_eq_true] at hb
    cases enc with
    | raw => exact absurd hb.1 (by simp)
    | utf8 =>
      cases alt with
      | some a => exact absurd hb.2 (by simp)
      | none =>
        have : ZipString.new (ZipString.basic ⟨.utf8, raw, none⟩) .utf8 = ⟨.utf8, raw, none⟩ := by
          show ZipString.new raw .utf8 = _
          unfold ZipString.new
          simp only
          rw [if_pos (g1 rfl)]
        simp only [if_true]
        rw [this]
        exact ⟨⟨rfl, fun _ h _ => h, fun _ _ _ h => (by cases h), fun h => (by cases h)⟩, his⟩
  | false =>
    simp only [Bool.false_eq_true, if_false]
    cases enc with
    | raw =>
      have ha : alt = none := g2 rfl
      subst ha
      have hnone : findInfo (ZipString.basic ⟨.raw, raw, none⟩) is = none := by
        cases hf : findInfo (ZipString.basic ⟨.raw, raw, none⟩) is with
        | none => rfl
        | some u =>
          have := (his _ (findInfo_mem hf) rfl).1
          cases this
      have hw : withInfo ⟨.raw, raw, none⟩ is = is := rfl
      rw [hw, hnone]
      refine ⟨?_, ?_⟩
      · unfold detectFallback ZipString.basic
        simp only [Option.getD_none]
        refine ⟨?_, fun t ht => (by cases (asStr_ok ht).1), fun t a ht => (by cases (asStr_ok ht).1), fun _ => ?_⟩
        · split <;> rfl
        · split
          · rename_i hx
            exact ⟨rfl, rfl, fun hn => absurd hn ((ascii_iff _).1 hx)⟩
          · exact ⟨rfl, rfl, fun _ => rfl⟩
      · intro i hi
        cases i with
        | unknown v d => exact his _ hi
        | v1 crc t =>
          intro hc
          rw [detectFallback_basic] at hc
          cases (his _ hi hc).1
    | utf8 =>
      by_cases hr : raw = []
      · subst hr
        have hw : withInfo ⟨.utf8, [], alt⟩ is = is := rfl
        rw [hw]
        cases hf : findInfo (ZipString.basic ⟨.utf8, [], alt⟩) is with
        | none =>
          refine ⟨⟨?_, fun t ht he => ?_, fun t a ht _ hn => absurd (asStr_ok ht).2 hn, fun h => by cases h⟩, ?_⟩
          · exact detectFallback_basic _ _
          · have ht' : t = [] := (asStr_ok ht).2
            have hb : ZipString.basic ⟨.utf8, [], alt⟩ = [] := by
              cases alt with
              | none => rfl
              | some a => exact he ht'
            rw [hb, ht']
            rfl
          · intro i hi
            cases i with
            | unknown v d => exact his _ hi
            | v1 crc t =>
              intro hc
              rw [detectFallback_basic] at hc
              rw [hc] at hi
              exact absurd hi (findInfo_none hf t)
        | some u =>
          have hu : u = [] := (his _ (findInfo_mem hf) rfl).2
          subst hu
          have hd : detectFallback (ZipString.basic ⟨.utf8, [], alt⟩) (some []) =
              ⟨.utf8, [], some (ZipString.basic ⟨.utf8, [], alt⟩)⟩ := rfl
          rw [hd]
          refine ⟨⟨rfl, fun t ht _ => ?_, fun t a ht ha hn => absurd (asStr_ok ht).2 hn, fun h => by cases h⟩, ?_⟩
          · rw [(asStr_ok ht).2]; rfl
          · intro i hi
            cases i with
            | unknown v d => exact his _ hi
            | v1 crc t => exact fun hc => his _ hi hc
      · have hw : withInfo ⟨.utf8, raw, alt⟩ is = putInfo (crc32 (ZipString.basic ⟨.utf8, raw, alt⟩)) raw is := by
          unfold withInfo
          simp only
          rw [if_neg (by simpa using hr)]
        have hv : utf8Valid raw = true := g1 rfl
        have hf : findInfo (ZipString.basic ⟨.utf8, raw, alt⟩)
            (putInfo (crc32 (ZipString.basic ⟨.utf8, raw, alt⟩)) raw is) = some raw := by
          cases is with
          | nil => simp [putInfo, findInfo]
          | cons i is =>
            cases i with
            | v1 c t => simp [putInfo, findInfo]
            | unknown v d => exact absurd (his _ List.mem_cons_self) (fun h => h)
        rw [hw, hf]
        have hd : detectFallback (ZipString.basic ⟨.utf8, raw, alt⟩) (some raw) =
            ⟨.utf8, raw, some (ZipString.basic ⟨.utf8, raw, alt⟩)⟩ := by
          unfold detectFallback
          simp only
          rw [dif_pos hv]
          rfl
        rw [hd]
        refine ⟨⟨rfl, fun t ht _ => ?_, fun t a ht ha _ => ?_, fun h => by cases h⟩, ?_⟩
        · rw [(asStr_ok ht).2]; rfl
        · show some (ZipString.basic ⟨.utf8, raw, alt⟩) = some a
          have ha : alt = some a := ha
          rw [ha]
          rfl
        · have key : ∀ j ∈ is, Agrees ⟨.utf8, raw, some (ZipString.basic ⟨.utf8, raw, alt⟩)⟩ j := by
            intro j hj
            cases j with
            | unknown v d => exact his _ hj
            | v1 crc t => exact fun hc => his _ hj hc
          intro i hi
          cases is with
          | nil =>
            rw [putInfo, List.mem_singleton] at hi
            subst hi
            exact fun _ => ⟨rfl, rfl⟩
          | cons j is =>
            cases j with
            | v1 c t =>
              rcases List.mem_cons.1 hi with rfl | hi
              · exact fun _ => ⟨rfl, rfl⟩
              · exact key _ (List.mem_cons_of_mem _ hi)
            | unknown v d => exact absurd (his _ List.mem_cons_self) (fun h => h)

theorem nameRead_eq (e : ZipEntry) : nameRead e = textRead (bothUtf8 e) e.filename (e.extraFields.filterMap asPath) := by
  unfold nameRead detectFilename textRead
  rw [find_asPath, asPath_withUnicode]
  cases bothUtf8 e <;> rfl

theorem commentRead_eq (e : ZipEntry) :
    commentRead e = textRead (bothUtf8 e) e.comment (e.extraFields.filterMap asComment) := by
  unfold commentRead detectComment textRead
  rw [find_asComment, asComment_withUnicode]
  cases bothUtf8 e <;> rfl

theorem both_name {e : ZipEntry} (h : bothUtf8 e = true) : e.filename.isUtf8WithoutAlternative = true := by
  unfold bothUtf8 at h
  rw [Bool.and_eq_true] at h
  exact h.1

theorem both_comment {e : ZipEntry} (h : bothUtf8 e = true) : e.comment.isUtf8WithoutAlternative = true := by
  unfold bothUtf8 at h
  rw [Bool.and_eq_true] at h
  exact h.2

theorem name_kept {e : ZipEntry} (hn : Constructed e.filename) (hu : UnicodeAgrees e) :
    SameText e.filename (nameRead e) := by
  rw [nameRead_eq]
  exact (text_kept hn both_name fun i hi => hu.path i (mem_asPath.1 hi)).1

theorem comment_kept {e : ZipEntry} (hn : Constructed e.comment) (hu : UnicodeAgrees e) :
    SameText e.comment (commentRead e) := by
  rw [commentRead_eq]
  exact (text_kept hn both_comment fun i hi => hu.comment i (mem_asComment.1 hi)).1

/-- The fields that go into the archive agree with the texts that are read back. -/
theorem unicode_again {e : ZipEntry} (hn : Constructed e.filename) (hc : Constructed e.comment) (hu : UnicodeAgrees e) :
    (∀ i, .unicodePath i ∈ withUnicode e e.extraFields → Agrees (nameRead e) i) ∧
      ∀ i, .unicodeComment i ∈ withUnicode e e.extraFields → Agrees (commentRead e) i := by
  refine ⟨fun i hi => ?_, fun i hi => ?_⟩
  · rw [nameRead_eq]
    rw [← mem_asPath, asPath_withUnicode] at hi
    exact (text_kept hn both_name fun i hi => hu.path i (mem_asPath.1 hi)).2 i hi
  · rw [commentRead_eq]
    rw [← mem_asComment, asComment_withUnicode] at hi
    exact (text_kept hc both_comment fun i hi => hu.comment i (mem_asComment.1 hi)).2 i hi

end AsyncZip
