import Verif.Proofs.Irrelevant
import Verif.Proofs.SampleCodec
import Verif.Samples.Programs
/-!
# C89: what an archive depends on, and what not
-/

namespace AsyncZip
open Spec Wr

/-- C89. Two programs whose calls agree in what is to be written (`Alike`) are told the same by every call and leave the same bytes
in the sink, whatever the sink does, in every configuration of the writer, and whether or not the archive can be closed. In
particular the compression level has no effect on entries that are stored, compressed by the caller or streamed, and the
checksum and sizes that an entry happens to carry none on entries written whole. -/
theorem C89_irrelevant (C : Codec) (zw : ZipWriter) (ops ops' : List Op) (evs : List Ev)
    (h : List.Forall₂ Alike ops ops') :
    (runArchive C zw ops evs).1 = (runArchive C zw ops' evs).1 ∧
    (runArchive C zw ops evs).2.1 = (runArchive C zw ops' evs).2.1 ∧
    (runArchive C zw ops evs).2.2.writer = (runArchive C zw ops' evs).2.2.writer := by
  obtain ⟨h1, h2⟩ := sim_runOps (C := C) h (Eq.refl (coreW true true zw))
  obtain ⟨k1, k2⟩ := sim_closeArchive ⟨_, evs⟩ ⟨_, evs⟩ ⟨h2, rfl⟩
  exact ⟨h1, k1.eq, coreW_writer k2.1⟩

/-- `ZipEntryBuilder::deflate_option` on the entry of a call. -/
def Op.withOption (o : DeflateOption) : Op → Op
  | .whole e d pre evs => .whole (e.withDeflateOption o) d pre evs
  | .stream e pre evs acts fin => .stream (e.withDeflateOption o) pre evs acts fin
  | .comment c => .comment c

/-- The call compresses in one piece. -/
def Compresses : Op → Prop
  | .whole e _ false _ => e.compression ≠ .stored
  | _ => False

theorem alike_option (o : DeflateOption) {op : Op} (h : ¬ Compresses op) : Alike op (op.withOption o) := by
  cases op with
  | comment c => exact .comment c
  | stream e pre evs acts fin => exact .stream _ _ _ _ ⟨rfl, rfl, rfl, rfl, rfl, rfl, rfl⟩ rfl rfl rfl
  | whole e d pre evs =>
    cases pre with
    | true => exact .ready _ _ ⟨rfl, rfl, rfl, rfl, rfl, rfl, rfl⟩ rfl rfl
    | false => exact .whole _ _ ⟨rfl, rfl, rfl, rfl, rfl, rfl, rfl⟩ fun hn => absurd hn h

/-- C89. The deflate option has no effect on an archive unless an entry is compressed in one piece: so far the documentation of
`deflate_option` is right. It is not for the other methods (`C89_other_method_fails`), and says nothing about streams, for which
the option has no effect even if the method is deflate. -/
theorem C89_option_partial (C : Codec) (zw : ZipWriter) (ops : List Op) (evs : List Ev) (o : DeflateOption)
    (h : ∀ op ∈ ops, ¬ Compresses op) :
    (runArchive C zw (ops.map (·.withOption o)) evs).1 = (runArchive C zw ops evs).1 ∧
    (runArchive C zw (ops.map (·.withOption o)) evs).2.1 = (runArchive C zw ops evs).2.1 := by
  have hf : List.Forall₂ Alike ops (ops.map (·.withOption o)) := by
    induction ops with
    | nil => exact .nil
    | cons op ops ih =>
      exact .cons (alike_option o (h op List.mem_cons_self)) (ih fun x hx => h x (List.mem_cons_of_mem _ hx))
  obtain ⟨h1, h2, _⟩ := C89_irrelevant C zw ops _ evs hf
  exact ⟨h1.symm, h2.symm⟩

/-- The entry of a call. -/
def Op.entry? : Op → Option ZipEntry
  | .whole e _ _ _ => some e
  | .stream e _ _ _ _ => some e
  | .comment _ => none

/-- C89. The four options that have a name are one and the same: on an entry that is new they have no effect on anything, not even
with deflate. -/
theorem C89_named (C : Codec) (zw : ZipWriter) (ops : List Op) (evs : List Ev) (o : DeflateOption) (ho : ∀ l, o ≠ .other l)
    (h : ∀ op ∈ ops, ∀ e, op.entry? = some e → e.compressionLevel = .default) :
    runArchive C zw (ops.map (·.withOption o)) evs = runArchive C zw ops evs := by
  have hl : o.intoLevel = .default := by
    cases o with
    | other l => exact absurd rfl (ho l)
    | _ => rfl
  have he : ∀ e : ZipEntry, e.compressionLevel = .default → e.withDeflateOption o = e := by
    intro e he
    unfold ZipEntry.withDeflateOption
    rw [hl, ← he]
  have hm : ops.map (·.withOption o) = ops.map id := by
    refine List.map_congr_left fun op ho => ?_
    cases op with
    | whole e d pre evs => exact congrArg (Op.whole · d pre evs) (he e (h _ ho e rfl))
    | stream e pre evs acts fin => exact congrArg (Op.stream · pre evs acts fin) (he e (h _ ho e rfl))
    | comment c => rfl
  rw [hm, List.map_id]

namespace Samples

/-- As `markCodec`, with one more mark at the end if a level is asked for. -/
def levelCodec : Codec where
  Enc := Bool
  start _ l := decide (l ≠ .default)
  feed s b := (s, b.flatMap fun x => [1, x])
  flush s := (s, [2])
  finish s := if s then [2, 0] else [0]
  decode _ b := markDecode b
  latePanics := true

theorem levelCodec_encodes {i o : List UInt8} {e s : levelCodec.Enc} (h : Encodes levelCodec e i o s) : Encodes markCodec () i o () := by
  induction h with
  | start => exact .start
  | feed b _ ih => exact .feed b ih
  | flush _ ih => exact .flush ih

theorem levelCodec_lawful : Lawful levelCodec := by
  intro c l h1 h2 i o s h rest
  cases hs : (s : Bool) with
  | false => exact markCodec_lawful c l h1 h2 i o () (levelCodec_encodes h) rest
  | true =>
    have := markCodec_lawful c l h1 h2 i (o ++ [2]) () (.flush (levelCodec_encodes h)) rest
    rw [List.append_assoc o] at this
    exact this

/-- An entry compressed with bzip2. -/
def bzipped : ZipEntry := ZipEntry.new ⟨.utf8, [98], none⟩ .bz

end Samples

/-- Whether one entry was written in one piece and the archive closed. -/
def oneWritten : List OpResult × Res Sink × ZipWriter → Bool
  | ([.whole (.ok ())], .ok _, _) => true
  | _ => false

/-- C89 is not so for the other methods: `deflate_option` says "If the compression type isn't deflate, this option has no effect",
but the level reaches every encoder. With a lossless codec that heeds its level, the archive of an entry compressed with bzip2
changes with the option. -/
theorem C89_other_method_fails : Lawful Samples.levelCodec ∧ Samples.bzipped.compression ≠ .deflate ∧
    ∃ o : DeflateOption,
      oneWritten (runArchive Samples.levelCodec Samples.fresh [.whole Samples.bzipped [5] false Samples.eager] Samples.eager) ∧
      oneWritten (runArchive Samples.levelCodec Samples.fresh
        [.whole (Samples.bzipped.withDeflateOption o) [5] false Samples.eager] Samples.eager) ∧
      (runArchive Samples.levelCodec Samples.fresh [.whole Samples.bzipped [5] false Samples.eager] Samples.eager).2.2.writer ≠
      (runArchive Samples.levelCodec Samples.fresh
        [.whole (Samples.bzipped.withDeflateOption o) [5] false Samples.eager] Samples.eager).2.2.writer :=
  ⟨Samples.levelCodec_lawful, by decide, .other 9, by decide +kernel, by decide +kernel, by decide +kernel⟩

/-- The sample program with all that does not matter changed: its calls compress nothing in one piece. -/
example : (runArchive Samples.markCodec Samples.fresh (Samples.program.map (·.withOption (.other 9))) Samples.eager).2.1 =
    (runArchive Samples.markCodec Samples.fresh Samples.program Samples.eager).2.1 :=
  (C89_option_partial Samples.markCodec Samples.fresh Samples.program Samples.eager (.other 9) (by
    unfold Samples.program
    simp only [List.forall_mem_cons, Compresses]
    exact ⟨by decide, not_false, not_false, not_false, by decide, fun _ h => by cases h⟩)).2

/-- A compressed entry that carries a checksum and sizes, as one taken from another archive does. -/
example : List.Forall₂ Alike [.whole Samples.deflatedEntry [5] false Samples.eager]
    [.whole { Samples.deflatedEntry with crc32 := 7, compressedSize := 8, uncompressedSize := 9, dataDescriptor := true } [5] false
      Samples.eager] :=
  .cons (.whole _ _ ⟨rfl, rfl, rfl, rfl, rfl, rfl, rfl⟩ fun _ => rfl) .nil

example := C89_named Samples.markCodec Samples.fresh [.whole Samples.deflatedEntry [5] false Samples.eager] Samples.eager .super
  (fun _ h => by cases h) (fun op ho e he => by rw [List.mem_singleton.1 ho] at he; cases he; rfl)

end AsyncZip
