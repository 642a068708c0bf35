import Verif.Model.Write
/-!
# Sinks that already hold something

A `ZipFileWriter` can be given a sink to which other things were written before.
-/

namespace AsyncZip.Spec

/-- The sink `k`, had it been through `pre` before. -/
def Sink.behind (pre k : Sink) : Sink :=
  { bytes := pre.bytes ++ k.bytes, flushes := pre.flushes + k.flushes, closes := pre.closes + k.closes }

/-- A writer on such a sink, in the same state otherwise. -/
def ZipWriter.behind (pre : Sink) (zw : ZipWriter) : ZipWriter :=
  { zw with writer := { sink := Sink.behind pre zw.writer.sink, offset := zw.writer.offset } }

end AsyncZip.Spec
