import Verif.Proofs.Size
import Verif.Props.Tiling
import Verif.Props.Entries
import Verif.Props.Agree
/-!
# C87: how long an archive is, and when it is ZIP64
-/

namespace AsyncZip
open Spec Wr

/-- The end of the archive is in ZIP64 form exactly if something asks for it. -/
theorem Finished.ends {C : Codec} {zw : ZipWriter} {ops : List Op} {evs : List Ev} {bytes out cd : Bytes}
    {ps : List (Listing × CdEntry)} {offs : List Nat} {z : Bool} (fin : Finished C zw ops evs bytes False out ps offs cd z)
    (hfine : ∀ r ∈ (runArchive C zw ops evs).1, Fine r) (hno : ∀ op ∈ ops, NoZip64 (userFields op)) :
    z = true ↔ EndsZip64 zw.forceNoZip64 zw.isZip64 (ps.map Prod.fst) := by
  obtain ⟨hend, _⟩ := fin.body.lengths id (fin.noZip64 hno)
  unfold EndsZip64 Beyond32
  rw [hend, List.length_map]
  constructor
  · intro hz
    rcases fin.only hfine hz with h | ⟨hf, h | h⟩ | h
    · exact Or.inl h
    · obtain ⟨p, hp, hn⟩ := h
      exact Or.inr (Or.inl ⟨hf, Or.inl ⟨p.1, List.mem_map_of_mem hp, (needs_iff _).1 hn⟩⟩)
    · exact Or.inr (Or.inl ⟨hf, Or.inr h⟩)
    · exact Or.inr (Or.inr h)
  · rintro (h | ⟨hf, ⟨l, hl, hn⟩ | h⟩ | h)
    · rw [fin.flag, (runOps_ext C ops zw).zip64 h, Bool.true_or]
    · obtain ⟨p, hp, rfl⟩ := List.mem_map.1 hl
      exact fin.needs hf ⟨p, hp, (needs_iff _).2 hn⟩
    · exact fin.count hf h
    · exact fin.far h

/-- C87. An archive whose calls all succeeded is exactly as long as its parts, each of which has the length that `partLength`
and `directoryPart` say, with 76 bytes for ZIP64 exactly if something asks for it; whatever the codec and however the sink took
the bytes. What is written out of these parts is nothing else, and no part is left out. -/
theorem C87_length (C : Codec) (sink sink' : Sink) (zw : ZipWriter) (h : Created sink zw) (hs : sink.bytes = [])
    (ops : List Op) (evs : List Ev) (hc : (runArchive C zw ops evs).2.1 = .ok sink')
    (hfine : ∀ r ∈ (runArchive C zw ops evs).1, Fine r) (hno : ∀ op ∈ ops, NoZip64 (userFields op)) :
    ∃ ls, Program C ops (runArchive C zw ops evs).1 ls ∧
      sink'.bytes.length = archiveLength zw.forceNoZip64 zw.isZip64 ls (archiveComment ops) ∧
      ((runArchive C zw ops evs).2.2.isZip64 = true ↔ EndsZip64 zw.forceNoZip64 zw.isZip64 ls) := by
  obtain ⟨out, ps, offs, cd, z, fin⟩ := finished h hs hc (J := False) (Or.inr hfine)
  have hends := fin.ends hfine hno
  obtain ⟨hout, hcd⟩ := fin.body.lengths id (fin.noZip64 hno)
  refine ⟨ps.map Prod.fst, fin.program, ?_, by rw [← fin.zip]; exact hends⟩
  rw [fin.bytes, archive_length, commentBytes_eq]
  unfold archiveLength endAt
  rw [hout, ← hcd cd fin.directory]
  by_cases hz : z = true
  · rw [if_pos hz, if_pos (hends.1 hz)]
  · rw [if_neg hz, if_neg fun he => hz (hends.2 he)]

/-- Only a call that sets the comment reports nothing. -/
def Speaks (op : Op) (r : OpResult) : Prop := r = .comment → ∃ c, op = .comment c

theorem runOp_speaks (C : Codec) (zw : ZipWriter) (op : Op) : Speaks op (runOp C zw op).1 := by
  intro hr
  cases op with
  | comment c => exact ⟨c, rfl⟩
  | whole e d pre evs => cases hr
  | stream e pre evs acts fin =>
    cases h : openStream C e pre ⟨zw, evs⟩ with
    | mk r s =>
      cases r with
      | error x => rw [runOp_open_error h] at hr; cases hr
      | ok st =>
        cases fin with
        | abandon => rw [runOp_abandon h rfl] at hr; cases hr
        | close evs' => rw [runOp_close h rfl rfl] at hr; cases hr

theorem runOps_speaks (C : Codec) : ∀ (ops : List Op) (zw : ZipWriter), List.Forall₂ Speaks ops (runOps C zw ops).1
  | [], _ => .nil
  | op :: ops, zw => .cons (runOp_speaks C zw op) (runOps_speaks C ops (runOp C zw op).2)

/-- The entries of a program of which everything is known beforehand. -/
theorem foreseen_program {C : Codec} {ops : List Op} {rs : List OpResult} {ls : List Listing} (h : Program C ops rs ls)
    (hfine : ∀ r ∈ rs, Fine r) (hsp : List.Forall₂ Speaks ops rs) : ∀ {ms : List Listing}, foreseen ops = some ms → ms = ls := by
  induction h with
  | nil => intro ms hf; unfold foreseen at hf; exact (Option.some.inj hf).symm
  | listed ha hs ih =>
    intro ms hf
    cases hsp with
    | cons hsp hsps =>
    have ih := fun {ms} => ih (fun r hr => hfine r (List.mem_cons_of_mem _ hr)) hsps (ms := ms)
    cases ha with
    | whole e d evs r stored hl hst =>
      unfold foreseen at hf
      split at hf
      · rename_i hm
        obtain ⟨ms', hf', rfl⟩ := Option.map_eq_some_iff.1 hf
        rcases hst with ⟨_, rfl⟩ | ⟨hn, _⟩
        · rw [ih hf']
        · exact absurd hm hn
      · cases hf
    | wholePre e d evs r hl =>
      unfold foreseen at hf
      obtain ⟨ms', hf', rfl⟩ := Option.map_eq_some_iff.1 hf
      rw [ih hf']
    | stream => unfold foreseen at hf; cases hf
    | streamPre => unfold foreseen at hf; cases hf
  | other ho hs ih =>
    rename_i op r ops rs ls
    intro ms hf
    have hr := hfine r List.mem_cons_self
    cases r with
    | whole r => exact absurd hr ho
    | stream a b c =>
      cases c with
      | none => exact hr.elim
      | some r => exact absurd hr ho
    | comment =>
      cases hsp with
      | cons hsp hsps =>
        obtain ⟨c, rfl⟩ := hsp rfl
        unfold foreseen at hf
        exact ih (fun r hr => hfine r (List.mem_cons_of_mem _ hr)) hsps hf

/-- C87. Whoever stores whole entries without compression, or has compressed them beforehand, can say how long the archive will
be before a byte of it is written: `archiveLength` of the entries, which depends on the calls only. -/
theorem C87_foreseen (C : Codec) (sink sink' : Sink) (zw : ZipWriter) (h : Created sink zw) (hs : sink.bytes = [])
    (ops : List Op) (evs : List Ev) (hc : (runArchive C zw ops evs).2.1 = .ok sink')
    (hfine : ∀ r ∈ (runArchive C zw ops evs).1, Fine r) (hno : ∀ op ∈ ops, NoZip64 (userFields op))
    (ls : List Listing) (hls : foreseen ops = some ls) :
    sink'.bytes.length = archiveLength zw.forceNoZip64 zw.isZip64 ls (archiveComment ops) := by
  obtain ⟨ls', hp, hl, _⟩ := C87_length C sink sink' zw h hs ops evs hc hfine hno
  rw [foreseen_program hp hfine (runOps_speaks C ops zw) hls]
  exact hl

theorem Samples.ready_own : ∀ op ∈ Samples.readyMade, ∀ f ∈ userFields op, OwnField f := Samples.ready_legible.own

/-- An entry compressed beforehand, a stream, which asks for ZIP64, and a stored entry: the sample of C62. -/
example : ∃ ls, Program Samples.markCodec Samples.readyMade
      [.whole (.ok ()), .stream (.ok ()) [.ok 7] (some (.ok ())), .whole (.ok ())] ls ∧
    Samples.readyBytes.length = archiveLength false false ls [] ∧ EndsZip64 false false ls := by
  obtain ⟨ls, h1, h2, h3⟩ := C87_length Samples.markCodec ⟨[], 0, 0⟩ ⟨Samples.readyBytes, 0, 0⟩ Samples.fresh .new rfl
    Samples.readyMade Samples.eager Samples.ready_archive.2
    (by rw [Samples.ready_archive.1]
        simp only [List.forall_mem_cons]
        exact ⟨Or.inl rfl, Or.inl rfl, Or.inl rfl, fun _ h => by cases h⟩)
    (fun op ho => own_noZip64 (Samples.ready_own op ho))
  rw [Samples.ready_archive.1] at h1
  exact ⟨ls, h1, h2, h3.1 (by decide +kernel)⟩

/-- A stored entry, a comment, and an entry compressed beforehand. -/
def Samples.known : List Op :=
  [.whole Samples.storedEntry [104, 105] false Samples.slow, .comment ⟨[111, 107], by decide +kernel⟩,
   .whole Samples.readyEntry [1, 7, 1, 8, 1, 9, 0] true Samples.eager]

theorem Samples.known_archive : (runArchive Samples.markCodec Samples.fresh Samples.known Samples.eager).1 =
      [.whole (.ok ()), .comment, .whole (.ok ())] ∧
    ((runArchive Samples.markCodec Samples.fresh Samples.known Samples.eager).2.1.toOption).isSome = true := by decide +kernel

/-- They make 193 bytes, which can be said without writing them. -/
example : ∃ sink', (runArchive Samples.markCodec Samples.fresh Samples.known Samples.eager).2.1 = .ok sink' ∧
    sink'.bytes.length = 193 := by
  have h := Samples.known_archive.2
  cases hc : (runArchive Samples.markCodec Samples.fresh Samples.known Samples.eager).2.1 with
  | error x => rw [hc] at h; cases h
  | ok sink' =>
    obtain ⟨ls, hls⟩ : ∃ ls, foreseen Samples.known = some ls := ⟨_, rfl⟩
    refine ⟨sink', rfl, (C87_foreseen Samples.markCodec ⟨[], 0, 0⟩ sink' Samples.fresh .new rfl Samples.known Samples.eager hc
      (by rw [Samples.known_archive.1]
          simp only [List.forall_mem_cons]
          exact ⟨Or.inl rfl, trivial, Or.inl rfl, fun _ h => by cases h⟩)
      (by unfold Samples.known
          simp only [List.forall_mem_cons]
          exact ⟨(fun _ h => by cases h), (fun _ h => by cases h), (fun _ h => by cases h), fun _ h => by cases h⟩) ls hls).trans ?_⟩
    have : ((foreseen Samples.known).map fun ls => archiveLength false false ls (archiveComment Samples.known)) = some 193 := by
      decide +kernel
    rw [hls] at this
    exact Option.some.inj this

end AsyncZip
