import Verif.Model.Write
/-!
# Vectored writes
-/

namespace AsyncZip

/-- `poll_write_vectored` on an `EntryStreamWriter` until ready, `src/base/write/entry_stream.rs:288-306`. The impl does not
give this method; the default one (`futures-io`, from memory of the published crate) calls `poll_write` with the first buffer
that is not empty, or with an empty one. -/
def streamWriteVectored {C : Codec} (zw : ZipWriter) (st : EntryStream C) (bufs : List Bytes) (evs : List Ev) :
    Res Nat × ZipWriter × EntryStream C :=
  streamWrite zw st ((bufs.find? fun b => !b.isEmpty).getD []) evs

/-- `AsyncOffsetWriter::poll_write_vectored` returning `Ready(Ok(k))`, `src/base/write/io/offset.rs:66-72`: the sink keeps the
first `k` bytes of the buffers; the offset stays as it is. Nothing in the crate calls this method. -/
def OffsetWriter.acceptVectored (w : OffsetWriter) (bufs : List Bytes) (k : Nat) : OffsetWriter :=
  { w with sink := { w.sink with bytes := w.sink.bytes ++ bufs.flatten.take k } }

end AsyncZip
