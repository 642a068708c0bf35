import Verif.Model.Write
/-!
# Programs that use the sink of an open writer (`ZipFileWriter::inner_mut`)
-/

namespace AsyncZip

/-- What a program does between two calls on a writer, or instead of one: a call, or something with the sink, through
`inner_mut`, `src/base/write/mod.rs:174-179`. Sinks are append-only here (see `Sink`), so what can be done to one is to write to it,
flush it and close it: `k` is what that would have left in an untouched sink. -/
inductive MixedStep where
  | call (op : Op)
  | sink (k : Sink)

/-- The effect on the writer: `self.writer.inner_mut()` (`src/base/write/mod.rs:177-179`, `src/base/write/io/offset.rs:38-40`) goes
past the offset. -/
def ZipWriter.innerMut (zw : ZipWriter) (k : Sink) : ZipWriter :=
  { zw with writer := { sink := { bytes := zw.writer.sink.bytes ++ k.bytes, flushes := zw.writer.sink.flushes + k.flushes
                                  closes := zw.writer.sink.closes + k.closes }
                        offset := zw.writer.offset } }

/-- Run such a program: the results of the calls. -/
def runSteps (C : Codec) (zw : ZipWriter) : List MixedStep → List OpResult × ZipWriter
  | [] => ([], zw)
  | .call op :: steps =>
    match runOp C zw op with
    | (r, zw') =>
      match runSteps C zw' steps with
      | (rs, zw'') => (r :: rs, zw'')
  | .sink k :: steps => runSteps C (zw.innerMut k) steps

/-- Run such a program and close the archive. -/
def runStepsArchive (C : Codec) (zw : ZipWriter) (steps : List MixedStep) (evs : List Ev) : List OpResult × Res Sink × ZipWriter :=
  match runSteps C zw steps with
  | (rs, zw') =>
    match closeArchive { zw := zw', evs } with
    | (r, s) => (rs, r, s.zw)

end AsyncZip
