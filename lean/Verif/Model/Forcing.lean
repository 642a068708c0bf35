import Verif.Model.Write
/-!
# Forcing ZIP64 on and off between the calls

`force_zip64` and `force_no_zip64` take the writer and hand it back, so that they can be called at any time at which no entry is
being written, not only when the writer is made.
-/

namespace AsyncZip

/-- A call on a `ZipFileWriter`, or one of the two that configure it, `src/base/write/mod.rs:123-126` and `130-133`. -/
inductive ForceCall where
  | call (op : Op)
  | zip64
  | noZip64

/-- Make the calls, `src/base/write/mod.rs:121-187`; the two that configure report nothing. -/
def forceRun (C : Codec) (zw : ZipWriter) : List ForceCall → List OpResult × ZipWriter
  | [] => ([], zw)
  | .zip64 :: cs => forceRun C zw.withForceZip64 cs
  | .noZip64 :: cs => forceRun C zw.withForceNoZip64 cs
  | .call op :: cs =>
    match runOp C zw op with
    | (r, zw') =>
      match forceRun C zw' cs with
      | (rs, zw'') => (r :: rs, zw'')

/-- Make the calls and close the archive, `src/base/write/mod.rs:189-271`. -/
def forceArchive (C : Codec) (zw : ZipWriter) (cs : List ForceCall) (evs : List Ev) : List OpResult × Res Sink × ZipWriter :=
  match forceRun C zw cs with
  | (rs, zw') =>
    match closeArchive { zw := zw', evs } with
    | (r, s) => (rs, r, s.zw)

end AsyncZip
