# Formal model of Majored/rs-async-zip in Lean 4 — design

The code under study is in `/repo` (crate `async_zip` 0.0.18). The model and proofs are in `/verif/lean/Verif`.
Nothing here was executed against the Rust code: the tie to the code is the citation carried by each definition.

## 1. Layout

| directory | contents |
|---|---|
| `Verif/Model/*.lean`  | executable model, function by function, each definition citing `/repo` file and lines |
| `Verif/Spec/*.lean`   | small independent specifications (APPNOTE layout, occurrences, UTF-8, what an entry should read back as) |
| `Verif/Proofs/*.lean` | helper lemmas |
| `Verif/Samples/*.lean` | concrete archives and programs used by the examples and the counterexamples |
| `Verif/Props/*.lean`  | property theorems (`Cnn_...`), with non-vacuity examples beside them |
| `properties.jsonl` | the properties in English |
| `MANIFEST.json` | which theorems belong to which property (`tools/manifest.py` regenerates it) |
| `seeded/LOG.jsonl` | wrong programs tried against the theorems |

A property that holds as stated has theorems without a suffix. Where the code violates a property there is a theorem
`Cnn_..._fails` that exhibits the violation, and a theorem `Cnn_..._partial` with the strongest form that does hold.

## 2. Trusted base

* **Lean's kernel**, version 4.33.0, which checks every proof. `decide +kernel` is used on literals (examples and
  counterexamples): the kernel evaluates the decision procedure, no compiler is involved.
* **Axioms**: at most `propext`, `Classical.choice` and `Quot.sound`; per theorem in section 8. No axioms are added, and
  there is no `sorry`, `admit`, `native_decide`, `bv_decide`, `implemented_by`, `unsafe` or `extern` in the sources.
* **The reading of the code**: that each definition in `Verif/Model` does what the cited Rust lines do. This is the
  weakest link, and cannot be checked by machine here: definitions are kept close to the Rust text for that reason.
* **The reading of the dependencies**: futures-lite's `read_exact`, `read_to_end`, `write_all`, `BufReader` and `Take`;
  `core::str::from_utf8`; crc32fast (CRC-32/ISO-HDLC); chrono's `with_ymd_and_hms`. They are modelled concretely from
  their documented behaviour, as their sources are not in the sandbox.
* **The codecs** (async-compression) are a parameter of the theorems. What is assumed of them is stated as a hypothesis
  (`Codec.Lawful`: decoding inverts encoding and stops at the end of the stream), satisfied by a concrete codec
  (`Samples.lengthCodec`), so that the theorems are not vacuous.

## 3. Modelling decisions

* **Integers.** Wire fields are `UInt16/UInt32/UInt64`, so record theorems need no range hypotheses. `as u32`/`as u16`
  casts are modular (`UIntN.ofNat`), `try_into` is a checked conversion. Byte counters (`u64` offsets, `usize` lengths)
  are `Nat`; theorems about archives assume the total length is `< 2^64`.
* **Bytes** are `List UInt8`.
* **Async I/O.** A source (`AsyncRead+AsyncSeek`) is a byte string with a position plus a *schedule*: a list of
  responses (`pending`, a short read of some size, an I/O error). A sink (`AsyncWrite`) is the list of bytes accepted
  plus a schedule (`pending`, accept at most n, error). Running out of schedule means that the future was dropped or
  the process crashed at that point: the outcome is `cancelled` and the state is whatever had been reached. Theorems
  quantified over all schedules therefore cover all chunkings, all interleavings of pending polls, all error points and
  all cancellation points. The schedule `none` is the ideal source, which always gives what is asked for.
* **Errors and panics** are data: `Fail.err e`, `Fail.panic`, `Fail.cancelled`. Integer overflow is a panic in builds
  with overflow checks and wraps otherwise: `Build.overflowChecks`; `Build.maxVecEntries` is the largest capacity
  `Vec::with_capacity` accepts without panicking.
* **Programs.** A use of the writer is a list of `Op`s (whole entries, streams with writes, flushes and closes, comments), each
  with its own sink schedule, run by `runArchive`; its results are what the caller sees. A stream that is not closed is
  abandoned. Uses of readers are lists of `Call`s or plans of visits.
* **CRC-32** is defined concretely (reflected polynomial 0xEDB88320) with the incremental `Hasher`.
* **UTF-8** is a concrete validator, proved equivalent to "is the encoding of a list of `Char`".
* All cargo features are assumed enabled (`full`), 64-bit `usize`. C94 compares the reader of any other build with this one, C95 that on targets with a narrower `usize`.

## 4. What is modelled, and what is not

Modelled, function by function:

| code | model |
|---|---|
| `src/spec/{header,parse,consts,version,compression,attribute}.rs` | `Model/Header.lean`, `Model/Types.lean` |
| `src/spec/extra_field.rs` and `parse_extra_fields` | `Model/ExtraField.lean` |
| `src/string.rs`, `detect_filename`/`detect_comment` of `src/base/read/mod.rs` | `Model/Str.lean`, `Model/Read.lean` |
| `src/date/*.rs` | `Model/Types.lean`, `Model/Chrono.lean` |
| `src/file/*.rs` | `Model/Types.lean`, `Model/FileBuilder.lean` |
| `src/entry/*.rs` | `Model/Types.lean`, `Model/Read.lean` (`seek_to_data_offset`) |
| `src/base/read/mod.rs` (`file`, `cd`, `cd_record`, `lfh`), `io/locator.rs`, `io/combined_record.rs`, `io/mod.rs` | `Model/Read.lean`, `Model/Rd.lean` |
| `src/base/read/io/{entry,compressed,hashed}.rs`, `src/base/read/stream.rs` | `Model/EntryReader.lean` |
| `src/base/read/io/owned.rs`, `reader_mut` of `src/base/read/stream.rs` | `Model/Exchange.lean` |
| `src/base/read/{seek,mem}.rs`, `src/tokio/read/fs.rs` | `Model/Sessions.lean`, `Model/PathReader.lean`, `Model/InnerReader.lean`, `Model/EntryReader.lean` |
| `src/base/write/{mod,entry_whole,entry_stream,compressed_writer}.rs`, `io/offset.rs` | `Model/Write.lean`, `Model/Forcing.lean`, `Model/Vectored.lean`, `Model/Inner.lean` |
| `examples/file_extraction.rs` (`sanitize_file_path`, `unzip_file`), on Unix | `Model/Extract.lean` |
| `examples/cli_compress.rs` (all but `main` and the arguments), on Unix | `Model/CliCompress.lean` |
| `examples/actix_multipart.rs` (`create_archive`) | `Model/Upload.lean` |

Not modelled:

* for the upload example: the server, its handler, parsing requests and dispositions (a request is a list of parts, each a file name
  or none and pieces of data, with errors in any place), `sanitize-filename` and `uuid` (parameters), that the file is flushed by
  `shutdown`; what is modelled is the text of a module that is never compiled (finding 33);
* for the compression example: symbolic links, other processes, Windows paths, reading the arguments and making the input path
  canonical; what is modelled is the text of a module that is never compiled (finding 33);
* for the extraction example: symbolic links and other processes that change the output directory meanwhile, Windows paths,
  the crate `sanitize-filename` (a parameter with a contract, `Sanitizes`), `main` (opens the archive next to the sources);
* plain getters, `Debug`/`Display`/`From` impls that only wrap, and that the `owned` wrapper (`io/owned.rs`) forwards reads
  (what it does when the source is taken back: C107);
* `inner_mut()` of writers is modelled for sinks that only append (C93), of seekable readers for any use (C108);
* what a decompressor does when it is polled again after it has rejected its data (in the model it rejects it again);
* what `async_compression` does when written to after it was closed: either a panic or an error, a parameter of the codec
  (`Codec.latePanics`);
* executors and wakers, allocation failure, the codecs, the file system under the readers (a file that the `fs` reader has open does
  not change; what is at its path may, see C106).

## 5. Properties

| id | what is modelled | how it is proved |
|---|---|---|
| C01 | record encoders/decoders | little-endian lemmas, per record |
| C02 | same, against offset table spec | per field slice equality |
| C03 | flag encode/decode | `testBit` characterisation |
| C04 | extra field encode/parse | induction on list; negation for an empty last field |
| C05 | count_bytes/as_bytes | case analysis; negation for disk numbers |
| C06 | parse_extra_fields over any bytes | well-founded induction; negation for the debug-build panic |
| C07 | zip64 selection | case analysis |
| C08 | ids | case analysis / whole domain |
| C09, C10 | date packing | bit arithmetic on Nat; negation for setting twice |
| C11 | ZipString constructors, detect_* | invariant, UTF-8 validator equivalence |
| C12 | writer name handling + reader detection | case analysis over encodings |
| C13, C14 | builder, version | bit arithmetic, case analysis; negation for raw directory names |
| C15, C16 | locator loop | induction on position |
| C17 | Rd monad with schedules | simulation predicate closed under bind |
| C18 | `file` on arbitrary bytes | panic-freedom analysis; negations for overflow and capacity |
| C19–C21 | `file`, `cd`, `cd_record` | inversion of the parser; negation for truncated records |
| C22, C23 | entry reader state machine | invariant over read sequences |
| C24 | checked reads, CRC | CRC step bijective, 4-byte block injective; after any use of the reader, both directions (`C24_match_accepted`, `C24_mismatch_reported`); the string variant exactly (`C24_string_outcome`). The check is about what was delivered since the last question for the checksum: everything, if there was none (`C24_everything_partial`), otherwise less (`C24_after_hash_fails`, `C24_again`) |
| C25, C26, C27 | reader state machines | history/interleaving induction |
| C28–C31 | streaming reader | composition of lfh/next/skip/done along the written records |
| C32–C34 | sink, offset writer, write_all | induction on schedule |
| C35–C40 | whole/stream writers, close | invariant over op histories |
| C41–C44 | writer ∘ reader | refinement: completed ops ↔ listed entries. `C44_precompressed_partial` is C44 for data compressed by the caller; there the compressed sizes agree, too |
| C45 | comment | locator + close; counterexamples for >65535 and embedded signature |
| C46, C47 | precompressed, panics | corollaries of writer lemmas |
| C48 | re-writing read entries | what the parser returns is well-formed; negations for ZIP64 fields and disagreeing names |
| C49 | chrono conversions | calendar characterisation, bit arithmetic |
| C50 | entry readers on arbitrary bytes | panic-freedom closed under bind; negation for the streaming reader |
| C51 | seekable and shared readers on two archives | relational invariant: states equal up to the archive, windows agree; transported through every call |
| C52 | whole/stream writers, close, within limits | the error set of every step, bounded growth of extra fields, progress |
| C53 | whole programs, their output before the directory | the round-trip invariant, with the region of every record. Partial: a ZIP64 field with a disk number makes a record reach into what follows (`C53_disk_fails`) |
| C54 | whole programs, parsing of extra fields | kinds of fields through every step of the writer, then what parsing drops; a counterexample for empty last fields |
| C55 | whole programs, `cd_record` | counting the extra fields of both headers; a counterexample for the naive reading |
| C56 | whole programs, their bytes | the round-trip invariant, reading the version fields of all records off the bytes; a counterexample for ZIP64 fields |
| C57 | whole programs on any sink | a simulation: every writer operation commutes with putting bytes before what the sink holds |
| C58 | opening any two files with the same index | after locating (the same place in both, by C15's lemmas), every read of one run is shown to fall in a window on which the files agree; chunk and position independence carry it to all sources |
| C59 | opening any prefix of a file | partial: the locator's result decides between the two errors; a cut inside the comment (`C59_comment_fails`; exactly the comment is affected, `C59_comment`) or behind an end record inside entry data (`C59_nested_fails`) is not noticed |
| C60 | `poll_close` on an entry stream | runs with and without it are the same call in the sense of C34; the encoder's closed flag is an invariant |
| C61 | the encryption bit in `lfh` and in the directory | streaming: from C31; the other readers: a witness, with C51 (no calls tell it from an entry that is not encrypted) |
| C62 | streaming and directory reader on written archives | both sides of C28 and C42 from one layout of the archive |
| C63 | `cd`, `lfh`, `next_with_entry`, `done`, `skip` on arbitrary files | induction over records and over visits; each takes up its own stretch of the file |
| C64 | sessions of calls on one entry reader, with failed and dropped `read_to_end`s | each call is a use of the reader (induction on the loop); retrying by induction on the errors left in the schedule |
| C65 | two runs of the clients of C28 and C42 over the same data with different sources and buffers | a two-run relation closed under sequencing; what is left in an entry reader decides its reads; every computation ends like that of the ideal source |
| C66 | `openFile`, `readerWithEntry`, streaming client; the log of requests in the source's state | amortised counting: one request per byte passed and a constant per header; induction on the announced number of records. Partial for streaming: the requests of decompressors are not counted |
| C67 | a client that opens an archive, reads all of it with the check and writes it again (`copyAll`) | composition of C48's copy of one entry over the list of entries, with the round trip of C42. Partial: entries with a ZIP64 field or contradictory unicode fields (C48's findings), comments that are not UTF-8 |
| C68 | `visits` (C28) with `read_to_end_checked` among the ways to visit an entry | C28 extended by the checksum that the local header shows. Partial: entries that were streamed carry the checksum in a data descriptor that the reader skips; `C68_descriptor_fails` |
| C69 | `visits` (C28) over `data` and over `data.take n`; codecs that look at no more of their input than they use (`Spec.FrontToBack`) | Each reading function either stays within the cut and acts alike, or fails, or (data read through `take`) comes up short with the cut as its end; composed along the list of visits, with nothing to be read after the cut. `C69_before`, `C69_noticed`, `C69_all_or_nothing`. Partial: the last entry may come up short unnoticed (`C69_short_fails`); `C69_last_partial` says that this is the only exception |
| C70 | `openFile` and `checkedRead` over any file of the same length that agrees with the archive from the directory on | Opening is `reopen` with other bytes in front; intact records are read as in C42; the rest is C24 and the burst property of CRC-32; records do not overlap by C53. Partial: archives as in C42 |
| C71 | `visits` (C28) from any position of any two sources | A two-run relation closed under sequencing (`Ahead`); a second one for the ideal source, in which the file is changed behind the end position (`Local`); for written archives, C28 with the end position. The part on written archives has the conditions of C28 |
| C72 | `visits` over two files that differ in the data of one stored entry | The run is split at the entry; up to its header nothing changes by C71, behind it by C71 again; the entry itself is its bytes. `C72_compressed_fails` for compressed entries |
| C73 | `runClient` and `runProgram`: strategies as functions; `streamWriteVectored` and `OffsetWriter.acceptVectored` | Induction over the number of calls gives the list; for `write_all`, induction with the number of bytes accepted so far. `C73_counting`: the counting writer would not count vectored writes; it is not reachable |
| C74 | `openFile`, `readerWithEntry` | `Openable` in `Spec/Openable` is read off the bytes with no reference to the reader. One direction from `openFile_ok` and what each step consumed; the other by building the run on a source that gives everything, step by step, and chunk independence. The search loop is shown to reach exactly 67456 bytes. As in C19 the locator's offset plus four is assumed not to overflow |
| C75 | `lfh`, `streamNext` | `GoodHeader` and `HeaderAt` in `Spec/Openable`; both directions as in C74 |
| C76 | `crcBit`, `Hasher` (standing for `crc32fast`) | `IsCrc32` in `Spec/Crc` is the definition by polynomial division (Mathlib's polynomials over `ZMod 2`), with no registers. The register as a polynomial is congruent to X times the one before, modulo the generator; induction over the bytes; degrees less than 32 make the congruence an equality. The written and the checked case from `listed_entry` and C24 |
| C77 | `openFile`, `readerWithEntry`, `streamNext` | `Refused`, `BadRecord`, `BadExtra`, `BadEntry`, `BadHeader` in `Spec/Refused` say, with no reference to the reader, what the first thing wrong is. Each case is run on a source that gives everything and carried over by chunk independence; that every file is openable or refused (and every position good, at the end, or bad) gives the other direction. Without overflow checks the locator's offset plus four is assumed not to overflow; with them that case is included (a panic), so on such a build the theorem also removes the assumption of C74 |
| C78 | The writer's calls as modelled; the specification (`Spec/Verdict.lean`) lists the refusals in order as rows of a table (`FirstOf`) over its own count of extra-field bytes. | `Props/Verdict.lean`: the result of each call is that of the first row; the early rows decide without the sink. From the two-outcome semantics of writer calls (`Outcome`) and the counts of every field the writer adds or changes. |
| C79 | `Model/Extract.lean`: the example program with the parts of `std::path` it uses, a disk without symbolic links that may fail at every request, and the sanitizer as a parameter with a contract (`Sanitizes`). `Spec/Extract.lean` says where an entry belongs (`target`, by splitting at slashes of either kind) and what may change (`Contained`). | `Props/Extract.lean`: induction over the entries; pushing sanitized pieces one after the other gives a path whose components are those of the output directory and the pieces left. An example shows that without the sanitizer an entry called `../ab` leaves the directory. |
| C80 | As C79; `plainRead` is the client that opens an entry and reads it to its end. | `Props/Extract.lean`: induction over the entries with C79 to keep what was extracted before. `C80_checksum_fails`: an entry with a wrong checksum, which a checked read refuses, is extracted. |
| C81 | As C79, with a disk that does as it is told. `Spec/ExtractAll.lean`: room for an entry (`Room`), two entries not in each other's way (`Apart`), an entry that can be read (`Fetchable`). | `Props/ExtractAll.lean`: each turn of the loop succeeds iff there is room on the disk it finds; room after an entry was laid down is room before it and being apart from it; induction over the entries. |
| C82 | As C81, with the writer's programs (`Packs`: the names and data of the listed calls). | `Props/ExtractAll.lean`: C81 and C80 with the round trips of C12 and C42; an unchecked read that ends without error gives what the checked one gives. |
| C83 | `Spec/Independent.lean`: an executable reader written from APPNOTE (`independent`), using only `fieldAt`, `OccursAt` and the byte string. | `Props/Independent.lean`: what the writer lays down is what this reader asks for, field by field, entry by entry. **Partial**: `Legible` and sizes of 0xFFFFFFFF as in C41; a directory beyond 4 GiB without ZIP64 (C40); `force_no_zip64` with compressed streams, whose sizes are exchanged, which this reader rejects (`C83_exchanged_fails`). |
| C84 | The reader of C83 on arbitrary files against `openFile` and `checkedRead`. | `Props/Accepted.lean`: inverting the independent reader gives what C74 asks for; then entry by entry against C19's records, which now give sizes and offset in terms of the bytes of the ZIP64 field (`RecordAt.values`). `C84_disagreement_unnoticed`: not conversely. |
| C85 | `sequential` (`Spec/Sequential.lean`), a reader from front to back written from the specification and not from the crate, against whole programs. | `Props/Sequential.lean`: entry by entry over the records of a finished archive (`Chain.parts`); for each entry it is decided exactly when the reader accepts it. `C85_streamed_fails` holds of every program with a stream. |
| C86 | The same reader on arbitrary files against `visits`. | Inverting `part` gives what C75 asks of a header, what the decoder does with the data, and where the descriptor ends; then induction over the entries (`AllParts.visits`). `C86_zip64_descriptor_fails` holds of every archive with such an entry. |
| C87 | `archiveLength` (`Spec/Size.lean`) adds up the parts as the ZIP specification lays them out, with the thresholds; whole programs on the other side. | `Props/Size.lean`: the invariant of the writer now has the converse of the ZIP64 condition (`Step.only`, `Finished.only`); lengths entry by entry (`Good.lengths`, `Body.lengths`). `C87_foreseen` has the entries determined by the calls alone. |
| C88 | `classic` (`Spec/Classic.lean`), a reader of the specification before version 4.5. | `Props/Classic.lean`: without a reason for ZIP64 every record is in the plain form (`Good.rawRecord`, `Good.rawLocal`); the rest as in C83. `C88_stream_fails` for streams. |
| C89 | `Alike` (`Spec/Irrelevant.lean`) says which calls ask for the same; two runs of the writer side by side. | `Props/Irrelevant.lean`: simulation between two writer states that differ only in fields never written (`Proofs/Irrelevant.lean`), function by function. `C89_other_method_fails`: a lossless codec that heeds its level, bzip2. |
| C90 | The setters as functions on the entry (`Model/Types.lean`); `Built` (`Spec/Builder.lean`) says field by field what was set last. | `Props/Builder.lean`: induction over the calls, the halves of the external attribute by C13. `C90_determined`: `Built` leaves nothing open. |
| C91 | Arbitrary files, the directory records by offset (`RecordAt`). | `Props/Permissions.lean`: from C19 and C75. `C91_host_fails` (an archive made on DOS) and `C91_stream_fails` (every stream). |
| C92 | `close` under two schedules of the sink; the reader on what the sink holds. | `Proofs/Interrupts.lean`: every step of closing either does all it ever does, or fails having written a proper beginning of it. `Props/Crash.lean`: with C59. Partial: archives with another end record in them are excluded (`C59_nested_fails`), and a failure within the comment goes unnoticed (`C92_comment_fails`). |
| C93 | Programs that use `inner_mut` (`Model/Inner.lean`); the file with pieces inserted at positions (`Spec/Inner.lean`). | `Props/Inner.lean`: from the fact behind C57 that no call looks at its sink, by induction over the program. `C93_ruined` is a concrete archive that nobody opens. |
| C94 | The reader from the API down to `Compression::try_from`, with the `cfg` attributes as a parameter (`Model/Features.lean`). | `Proofs/Features.lean`: step by step comparison of the two readers (`Thins`), induction over the directory; `Props/Features.lean`. |
| C95 | The readers from the API down to the two places that use `usize`, with the number of its values as a parameter (`Model/Narrow.lean`). | `Proofs/Narrow.lean`: step by step comparison of the two readers (`Narrows`); `Props/Narrow.lean`, with C77 for the exact files. |
| C96 | `compress`, `crc32` and the four kinds of writing calls. | `Proofs/Precompressed.lean`: what is measured of the entry is the same, for streams what closing depends on; then C89's comparison of programs. |
| C97 | `write_lfh` and what follows it. | `Proofs/Announced.lean`: the fields of the header in the bytes, kept by everything that comes after. Proved: the header has what the entry carries. The documentation is right only about entries that carry nothing (`C97_null_fails`). |
| C98 | `examples/cli_compress.rs` (`Model/CliCompress.lean`) on a disk that can be listed (`Browsable`). | The walk is an induction on its turns, with the queue pairwise aside; it ends because the paths below the queue become fewer (`walk_found`, `walk_ends`). Proved for every directory but the root (`C98_directory_partial`, `C98_completes_partial`), where names lose their first byte (`C98_root_fails`) or the program panics (`C98_root_panics_fails`). |
| C99 | Both example programs, the writer and the reader. | `C98_directory_partial` and `C82_packed`, with the names split and joined again (`target_joined`). Files exactly (`Restored.files`); directories only those on the way to a file: empty ones are lost (`C99_empty_directories_fails`). A single file: `C99_single`, with the whole disk afterwards. |
| C100 | invariant and refinement to the format | The records of a finished archive on its bytes, as for C36 but with ZIP64 fields in the entries (`Good.place`). Proved for streamed entries and for small ones (`C100_records_partial`). For large ones written in one go the record gives what the entry's first ZIP64 field says (`C100_stale`), which is wrong if the data changed (`C100_large_fails`); small ones beyond 4 GiB are lost (`C100_lost`, `C100_far_fails`). |
| C101 | refinement to the format, composed with C84 | C83 without its assumption that entries bring no ZIP64 field along: local headers and records of such entries on the bytes (`LocalHeader.full`, `Good.itemFull`) give the true values unless the entry is one of those C100 is about (`Repackable`); all blocks are complete, so that C84 applies (`C101_restored_partial`). `C101_copied_partial` is C67 without its assumption about ZIP64 fields, and `C101_origin_partial` says that the entries of archives this library wrote have the form it asks for. |
| C102 | induction over the number of copies, with C67 for each | `Copy` says what a copier does and with what it works, `Generation` that there were so many. The invariant is that all entries are `Copyable` and that reads of the current copy give the data the first copier got; that each copier gets the same is derived, not assumed. `Samples.generations` is such a series of every length. |
| C103 | invariant of what the streaming reader makes (`visits_made`), composed with the writer's round trip | `C103_collected_partial`: what any run of the streaming reader yields is made of fields and texts that can be written, so C41, C42 and C12 apply (`made_at`, of which C48 is the case of the seekable reader). `C103_descriptors_partial`: with ZIP64 fields as streamed entries have them, by C101. `C103_assembled_partial`: any program whose entries come from any number of readers of both kinds. |
| C104 | simulation: the loop is a program of streaming calls (`uploadLoop_ops`, by induction over parts, pieces and writes), composed with the writer's and reader's theorems | `C104_stored`, `C104_left` for any behaviour of the file, `C104_completes`. `C104_read_partial` by C41 and C42 (the archive always ends in ZIP64 form if it is not empty, by C87, so nothing is asked about locators), `C104_unpacked_partial` by C82, `C104_streamed` by C28. |
| C105 | two-run simulation: equal states are kept by every call (induction over calls) | `C105_seekable`, `C105_shared`, `C105_checked` without hypotheses about the archive. `C105_size_partial` for entries compressed or stored by the writer, under the hypotheses of C41; `C105_size_fails`: with precompressed data the size is the caller's, and nothing compares it. |
| C106 | `pathRun` (`Model/PathReader.lean`): `sharedRun` with what is at the path at every call | `C106_isolation`, `C106_when_opened` (induction over calls), `C106_session` (simulation by a seekable reader over the file that was opened), `C106_unnoticed` (as C51, with another file per user), `C106_checksum`. `C106_replaced_fails`: without asking for the checksum, another file's bytes are given as the entry's data. Not modelled: writing into the file while it is open |
| C107 | `benchRun` (`Model/Exchange.lean`): entry readers with their sources, owned or borrowed, in any number of streaming readers | `C107_panics_iff` (exactly when leaving panics), `C107_owned` and `C107_unexchanged` (invariants over steps), `C107_exchanged_partial` (equivariance under exchanging places; the entries must agree in having descriptors), `C107_plain` (refinement to `Reading.done`/`skip`). `C107_borrowed_fails`: a seekable reader's entry reader makes `done` panic; `C107_descriptor_fails`: the flag stays behind |
| C108 | `innerSession` (`Model/InnerReader.lean`): sessions of a seekable reader with uses of its source, any functions | `C108_unnoticed` (simulation by the session without the uses, using C25's and C51's lemmas), `C108_moved` (for uses that keep the content), `C108_replaced` |
| C109 | `forceRun`, `forceArchive` (`Model/Forcing.lean`): programs of the writer with `force_zip64` and `force_no_zip64` anywhere | `C109_until_close`, `C109_any_time` (C89's simulation, with the ZIP64 mark left out of what is compared), `C109_end`, `C109_late_partial` (if nothing has asked for ZIP64 before it is forbidden), `C109_late_exact` (when that is so, by the writer's invariant), `C109_late_fails` (finding 50), `C109_opened_partial` (the directories are the same; what C41 assumes of both archives is assumed) |
| C110 | `runOps`, `runArchive` (as for C34), with the calls that set the comment left out or moved | `C110_until_close`, `C110_last` (C89's simulation, with the comment left out of what is compared), `C110_end`, `C110_opened_partial` (the directories are the same, so what is read of them is; what C41 assumes of both archives is assumed) |
| C111 | `ZipFileBuilder`; `from_raw_parts` is the listing that `seekSession` and `sharedRun` are given | `C111_listing` (induction over how builders and listings are come by), `C111_rebuilt`, `C111_empty` (induction over the session), `C111_kept` (C51, for sources with the same front), `C111_written_partial` (the argument of C42, with any bytes behind the entries; what C42 assumes of the archive is assumed) |

What each theorem leaves out is said in the notes of `MANIFEST.json`. Most exclusions of the round-trip theorems are in
`Spec.Legible`; `C41_small_partial`, `C41_ordinary_partial` and `C45_small_partial` replace its conditions on the bytes by
conditions on the calls.

## 6. What the proofs found

Deviations from the properties, each with a theorem that exhibits it unless noted. Line numbers are of `/repo`.

1. `entry_stream.rs:219`: closing a stream under `force_no_zip64` exchanges the compressed and uncompressed sizes
   (`C37_exchanged_fails`, `C42_exchanged_fails`, `C46_exchanged_fails`).
2. `header.rs:78`: `content_size` counts 8 bytes for a disk number, of which 4 are written (`C05_declared_length_fails`).
3. `entry_whole.rs`: beyond 4 GiB, an entry whose size is exactly 0xFFFFFFFF gets a ZIP64 field with only the offset,
   which readers take for the size (`C36_clash_fails`; hypothesis `Clash` of the `_partial` theorems).
4. `parse_extra_fields`: a zero-length last field is dropped (`C04_extra_fields_roundtrip_fails`); an overlong field
   underflows while the error is built (`C06_parse_no_panic_fails`, `C50_streaming_fails`).
5. `read/mod.rs:61`: `relative_offset + 4` overflows; `Vec::with_capacity(num_entries)` panics for huge counts
   (`C18_never_panics_fails`).
6. `read_bytes` accepts names, extra fields and comments cut short by the end of the data (`C21_declared_lengths_fails`).
7. A comment containing an end signature makes the archive unreadable (`C45_embedded_fails`); comments over 65535 bytes
   have their length truncated (`C45_long_fails`).
8. An archive without ZIP64 records whose last directory bytes look like a ZIP64 locator is misread: the comment of the
   last entry can make the archive unreadable (`C41_locator_fails`) or its reader panic (`C41_locator_panics_fails`).
9. `TooManyFiles` is returned after the entry has been recorded (`C43_refused_fails`, `C40_count_fails`); a directory of
   more than 4 GiB alone does not make the archive ZIP64 (`C40_size_fails`).
10. Some errors are raised after bytes have been written (`C35_no_trace_fails`).
11. Date setters OR their bits into what is there (`C10_last_setting_wins_fails`); years out of range wrap
    (`C49_years_fails`).
12. An empty UTF-8 name with a native alternative is lost (`C12_empty_text_fails`); an Info-ZIP field of unknown version
    keeps the writer from storing the alternative (`C12_blocked_fails`).
13. The streaming reader reports an unexpected header for an archive without entries (`C28_empty`).
14. `compute_hash` replaces the hasher: a second checked read compares the checksum of nothing (`C24_again`), and one
    after `compute_hash` only that of what came after it (`C24_after_hash_fails`). The uncompressed size is
    never compared with what was read (see `C24`, `C105_size_fails`).
15. Deflate64 cannot be written and panics (`C47_deflate64_panics`); so does the public `compress` for `Stored`
    (`C47_compress_panics`). The writer of a compressed entry does not remember that it was closed through `AsyncWrite`, so
    writing on reaches the compression library, which may panic (`C47_closed_fails`).
16. ZIP64 streamed entries have placeholder sizes in their descriptors (`C37_descriptor_fails`).
17. Directories with names that are not UTF-8 are given version 1.0 (`C14_raw_directory_fails`), and entries with ZIP64
    fields a version below 4.5 (`C56_zip64_fails`).
18. For a compressed entry without descriptor, `done` and `skip` leave the source after the bytes the decoder used,
    which need not be the declared ones (`C29_exact_fails`); so damage in one compressed entry can make all that follows
    unreachable in a stream (`C72_compressed_fails`).
19. Entries streamed without compression are written, but the streaming reader refuses them
    (`C28_stored_stream_fails`).
20. Flushing a compressed stream changes its compressed size (`C44_compressed_size_fails`).
21. Copying a streamed entry twice corrupts it (`C48_twice_fails`), because the first copy's ZIP64 field is kept; an entry
    with an invalid UTF-8 name and a matching unicode path field is renamed by copying (`C48_renamed_fails`).
22. The stream writer ignores the entry's compression level; `ZipFileWriter::close` neither flushes nor closes the sink
    (the latter is `C33`).
23. Offsets count from where the writer began: a file that holds something before the archive does not open as a whole
    (`C57_whole_file_fails`). If what was there is an archive laid out alike, the file opens without complaint and shows the
    entries of that one, not of the one written last (`C57_mistaken_fails`).
24. A file cut inside its archive comment opens without complaint, with the comment cut short: strings are read with
    `take(n).read_to_end`, which accepts fewer bytes (`C59_comment_fails`).
25. A file cut behind a stored entry that is itself an archive opens as that archive (`C59_nested_fails`).
26. Only the streaming reader looks at the encryption bit. The others list an encrypted entry like any other and serve the
    ciphertext as its data (`C61_seekable_fails`).
27. Nothing compares a local header with the directory: the two kinds of reader can be made to see different names and
    data in the same file (`C62_twofaced_fails`).
28. Entries of the directory may share their data (`C63_shared_fails`), so what is read through the directory is not
    bounded by the size of the file.
29. A checked read of an entry with a data descriptor fails in the streaming reader, although nothing is wrong with it: the
    checksum in the descriptor is skipped and the one in the local header, which the writer leaves at what it was on the entry
    (zero on a new one), is compared with (`C68_descriptor_fails`).
30. The streaming reader does not compare the number of bytes of an entry with the number declared: a stored entry that the
    end of the file cuts short is read, and `done` called on it, without complaint (`C69_short_fails`). Only asking for the
    next entry fails.
31. `AsyncOffsetWriter::poll_write_vectored` does not count what it writes (`C73_counting`). Nothing calls it, as long as
    `EntryStreamWriter` and `CompressedAsyncWriter` keep the default method.
32. There are streams that open and cannot be closed: their extra fields leave room for the 20 bytes of the ZIP64 field the
    local header is given, but not for the 8 bytes the offset adds when the sizes are known. The error comes after the data
    (row 2 of `closeRows`, `C78_close_stream` and the example behind it). The same holds for comments over 65535 bytes, which
    only `close` looks at.
33. Two of the three examples are compiled to nothing: their content is behind `#[cfg(features = "deflate")]`, which is never
    true (the key is `feature`). `actix_multipart.rs` would not compile if it were (it imports `async_zip::write`).
34. The extraction example does not verify checksums (`C80_checksum_fails`): it copies from a plain reader. It reports a damaged
    stored entry as extracted.
35. The seekable reader takes everything from the directory and only two lengths from the local header: an archive whose local
    header names another file than the directory opens and reads without an error (`C84_disagreement_unnoticed`). A careful
    reader rejects such archives, which are a known way to show different files to different programs.
36. A streamed entry has a ZIP64 field in its local header, unless `force_no_zip64` is on. APPNOTE 4.3.9.2 then asks for sizes of
    eight bytes in the data descriptor; the writer emits four bytes each, all ones. No reader that goes from front to back by the
    specification can read an archive with a stream (`C85_streamed_fails`, for every program). With `force_no_zip64` the width is
    right and the sizes are exchanged (`C85_exchanged_fails`).
37. The streaming reader makes the matching mistake: it takes sizes in a data descriptor to have four bytes whatever the local
    header says, so that on a conforming archive whose entry has a ZIP64 field and a data descriptor it stops in the middle of
    the descriptor and the next call fails (`C86_zip64_descriptor_fails`). The two mistakes cancel out within the crate (C28).
38. The writer makes an archive ZIP64 as soon as one entry was streamed, however small it turned out to be, and the directory
    record of a stream has all its values in a ZIP64 field even though they are known by then and fit (`C88_stream_fails`).
    Software from before ZIP64 cannot read such an archive; `force_no_zip64` avoids it for stored streams only (finding on the
    exchanged sizes above).
39. `ZipEntryBuilder::deflate_option` says "If the compression type isn't deflate, this option has no effect"
    (src/entry/builder.rs:55-62). `compress` gives the level to the bzip2, LZMA, XZ and Zstandard encoders as well
    (src/base/write/entry_whole.rs:252-297; `C89_other_method_fails`). Streams ignore it, even with deflate
    (src/base/write/compressed_writer.rs:30-52; `C89_option_partial`), and the four options with a name are all the default level
    (src/spec/compression.rs:102-110; `C89_named`).
40. `ZipEntry::unix_permissions` "will return None if the attribute host compatibility is not listed as Unix", but the reader
    sets the compatibility to Unix without looking at the host that the archive names (src/base/read/mod.rs:182, 246). Entries of
    archives made on DOS or Windows report permissions 000 (`C91_host_fails`), and so do all entries read from a stream
    (`C91_stream_fails`).
41. The comment is the last thing that `close` writes, and the reader takes as comment whatever is there, up to the length that the
    end record gives (src/base/write/mod.rs:266-268, src/base/read/io/mod.rs:25-33). A file whose closing failed within the comment
    opens with all its entries and a shorter comment or none (`C92_comment_fails`).
42. An entry with a method that the build lacks, or that the crate does not know, makes the whole archive unavailable: opening fails
    while the directory is read (src/base/read/mod.rs:149), before anyone asks for that entry (`C94_error`). By default the crate has
    no features, so it opens no archive that has a deflated entry.
43. `cd` checks that the number of entries fits a `usize` (`read/mod.rs:88`), but allocates that many entries before it has read one
    (`read/mod.rs:89`). On a 32-bit target the check leaves counts up to 4294967295, and the allocation panics for all but the
    smallest of them (`C95_panics`): the error `TargetZip64NotSupported` covers only the larger ones (`C95_too_many`).
44. `write_entry_stream` says that the local header has "no compressed size, uncompressed size, and a null CRC"
    (`write/mod.rs:148-150,161-162`). It has what the entry passed in carries, right or wrong (`C97_header`, `C97_null_fails`), and
    `write_entry_stream_precompressed` asks for just these values to be set. An entry that was taken from a reader and changed
    before it is streamed announces the checksum and sizes of its old data.
45. The compression example, if it were compiled (finding 33): given the root directory it cuts the first byte off every name
    (`C98_root_fails`), or panics if that is not a whole character (`C98_root_panics_fails`). It creates the output file before it
    walks the directory (`cli_compress.rs:45`), so an output file inside the directory is packed into itself, with whatever has
    been written to it by then. Empty directories are not packed (`C99_empty_directories_fails`). A file whose name has a
    backslash in it is packed under that name and extracted to another place, because the extraction example takes backslashes
    for slashes.
46. `write_entry_whole` and `write_entry_whole_precompressed` add a ZIP64 field to an entry that does not fit without looking
    for one it has (`entry_whole.rs:64-83,163-170`, where a TODO says so). Readers use the first. An entry of more than 4 GiB
    that was read from an archive and is written to another with other data is therefore recorded with the sizes it had before;
    the calls succeed (`C100_large_fails`; in general `C100_stale`). Likewise a small entry that was streamed, read and written
    in one go to an archive beyond 4 GiB: the directory gives its old uncompressed size for its place, so that it is lost
    (`C100_far_fails`; in general `C100_lost`). Streaming these entries is right (`C100_records_partial`).
47. The upload example leaves the unfinished archive in `tmp` when a request breaks off or a write fails (`C104_left`), and makes no
    difference between parts of the same name: the archive then has several entries of that name, of which the extraction
    example extracts the first and then fails (`C80_extracted`: the files of an archive extracted without an error are distinct).
48. The path reader does not notice that the file at its path is another one than that of its listing: it gives bytes of the new file
    with the metadata of the old one (`C106_replaced_fails`). Only the checksum can tell (`C106_checksum`).
49. Through `reader_mut` of a streaming reader, safe code can put the entry reader of a seekable reader over the same kind of source in
    the place of its own. `done` and `skip` then panic ("not OwnedReader::Owned value", `C107_borrowed_fails`; exactly when:
    `C107_panics_iff`). With that of another streaming reader, the data descriptor flag stays behind, so that a descriptor is taken for
    a header or part of a header for a descriptor (`C107_descriptor_fails`).
50. `force_no_zip64` called after a stream was written, or after `force_zip64`, does not keep the archive from being closed with a ZIP64
    end record and locator, and no error is raised (`C109_late_fails`, exactly when: `C109_late_exact`): it only forbids what is asked for later, not what has been noted.

## 7. Mutation testing

`seeded/LOG.jsonl` has one line per wrong program: the definition of the model that was edited, the edit, the claim it
breaks, the theorems that no longer proved and those tightened because of it. A theorem counts as failed if its own proof
fails or if it uses a lemma whose proof fails.

## 8. Axioms per theorem

<!-- axioms: generated by tools/axioms.py -->
**propext, Classical.choice, Quot.sound** (267): `C01_local_file_header`, `C01_central_directory_record`, `C01_end_of_central_directory`, `C01_zip64_end_record`, `C01_zip64_locator`, `C01_local_file_header_converse`, `C01_central_directory_record_converse`, `C01_end_of_central_directory_converse`, `C01_zip64_end_record_converse`, `C01_zip64_locator_converse`, `C02_local_file_header`, `C02_central_directory_record`, `C02_end_of_central_directory`, `C02_zip64_end_record`, `C02_zip64_locator`, `C03_flags_encode`, `C03_flags_decode`, `C04_extra_fields_roundtrip_partial`, `C04_extra_fields_roundtrip_nonempty_last`, `C05_field_size_partial`, `C06_parse_exact_partial`, `C06_parse_no_panic_release`, `C08_compression_ids`, `C09_build_then_read`, `C09_component_ranges`, `C09_read_then_build`, `C10_setter_independent`, `C10_setter_panics_iff`, `C10_setters_commute`, `C10_each_component_once_partial`, `C11_validator_exact`, `C11_constructors`, `C11_opened_archive`, `C11_streamed_entry`, `C12_strings_partial`, `C12_empty_text_fails`, `C12_blocked_fails`, `C13_unix_permissions`, `C14_version_needed_partial`, `C15_located_is_last`, `C15_found_if_near`, `C15_absent`, `C16_bounded_io`, `C17_chunk_independent`, `C18_panics_explained_partial`, `C18_release_no_zip64_partial`, `C18_never_panics_fails`, `C19_entries`, `C19_spanned_rejected`, `C20_in_archive`, `C21_declared_lengths_fails`, `C22_prefix`, `C22_stored`, `C22_zero_means_all`, `C22_to_end`, `C23_hash`, `C24_match_accepted`, `C24_everything_partial`, `C24_string_outcome`, `C24_again`, `C24_ok_matches`, `C24_mismatch_reported`, `C24_string_matches`, `C24_burst_detected`, `C25_history_independent`, `C27_in_bounds`, `C28_visits_partial`, `C28_stored_stream_fails`, `C28_empty`, `C29_done`, `C29_done_early`, `C29_skip`, `C29_data_start`, `C29_exact_fails`, `C30_consumed`, `C30_succeeds`, `C31_accepts_only`, `C31_unknown_signature`, `C31_unknown_method`, `C31_unsupported`, `C35_no_trace_partial`, `C35_rejects`, `C35_no_trace_fails`, `C36_clash_misread`, `C36_clash_fails`, `C36_offsets_partial`, `C37_stream_partial`, `C38_local`, `C38_close`, `C38_reports_whole`, `C38_reports_close`, `C39_values_partial`, `C40_end_records_partial`, `C40_size_fails`, `C40_count_fails`, `C41_locator_fails`, `C41_locator_panics_fails`, `C41_ordinary_partial`, `C41_metadata_partial`, `C41_small_partial`, `C42_exchanged_fails`, `C42_ordinary_partial`, `C42_content_partial`, `C43_refused_fails`, `C43_not_listed`, `C43_harmless_partial`, `C44_equivalent_partial`, `C44_precompressed_partial`, `C45_comment_partial`, `C45_small_partial`, `C45_long_fails`, `C45_embedded_fails`, `C46_verbatim_partial`, `C46_exchanged_fails`, `C47_calls_partial`, `C47_close`, `C48_readable_fields`, `C48_copy_partial`, `C49_no_panic`, `C49_round_trip_partial`, `C49_stored_dates`, `C49_order`, `C49_years_fails`, `C50_streaming_partial`, `C51_seekable`, `C51_shared`, `C52_call`, `C52_program`, `C52_completes`, `C53_tiling_partial`, `C54_fields_partial`, `C54_empty_fails`, `C55_header_size_partial`, `C55_streamed_fails`, `C56_versions_partial`, `C57_whole_file_fails`, `C57_mistaken_fails`, `C58_index_only`, `C58_entries_unread`, `C58_trailing`, `C59_cut_partial`, `C59_comment`, `C59_comment_fails`, `C59_nested_fails`, `C61_streaming_partial`, `C61_seekable_fails`, `C62_agree_partial`, `C62_twofaced_fails`, `C63_listing_partial`, `C63_streaming_partial`, `C63_shared_fails`, `C64_prefix`, `C64_resumed`, `C64_retry`, `C65_streaming`, `C65_seekable`, `C65_one_for_all`, `C66_opening`, `C66_entry`, `C66_data`, `C66_streaming_partial`, `C67_archive_partial`, `C68_checked_partial`, `C68_descriptor_fails`, `C69_before`, `C69_last_partial`, `C69_noticed`, `C69_all_or_nothing`, `C69_short_fails`, `C70_contained_partial`, `C70_others_partial`, `C71_up_to`, `C71_directory_partial`, `C72_contained`, `C72_noticed`, `C72_burst`, `C72_compressed_fails`, `C74_opens_iff`, `C74_entry_iff`, `C75_next_iff`, `C75_shown`, `C76_checksum`, `C76_pieces`, `C76_checked`, `C76_written`, `C77_open_outcome`, `C77_entry_outcome`, `C77_next_outcome`, `C78_whole`, `C78_whole_early`, `C78_close`, `C80_extracted`, `C80_checksum_fails`, `C81_completes`, `C82_packed`, `C83_independent_partial`, `C83_content_partial`, `C84_accepted`, `C84_disagreement_unnoticed`, `C85_sequential_partial`, `C85_streamed_fails`, `C86_streaming_partial`, `C86_checked_partial`, `C86_zip64_descriptor_fails`, `C86_empty_fails`, `C87_length`, `C87_foreseen`, `C88_classic_partial`, `C88_failures_partial`, `C90_built`, `C90_determined`, `C90_permissions`, `C91_reported_partial`, `C91_host_fails`, `C91_stream_fails`, `C92_unclosed_partial`, `C92_underway_partial`, `C92_comment_fails`, `C93_ruined`, `C94_opens`, `C95_too_many`, `C95_panics`, `C97_header`, `C97_null_partial`, `C98_directory_partial`, `C98_completes_partial`, `C98_single`, `C98_root_fails`, `C98_root_panics_fails`, `C99_restored_partial`, `C99_single`, `C99_empty_directories_fails`, `C100_records_partial`, `C100_stale`, `C100_lost`, `C100_far_fails`, `C101_repacked_partial`, `C101_restored_partial`, `C101_copied_partial`, `C101_origin_partial`, `C102_generations_partial`, `C103_collected_partial`, `C103_descriptors_partial`, `C103_assembled_partial`, `C104_completes`, `C104_read_partial`, `C104_unpacked_partial`, `C104_streamed`, `C105_size_partial`, `C105_size_fails`, `C106_when_opened`, `C106_unnoticed`, `C106_checksum`, `C106_replaced_fails`, `C107_panics_iff`, `C107_owned`, `C107_unexchanged`, `C108_unnoticed`, `C108_moved`, `C108_replaced`, `C109_opened_partial`, `C109_late_partial`, `C109_late_exact`, `C110_opened_partial`, `C111_listing`, `C111_kept`, `C111_written_partial`.

**propext, Quot.sound** (103): `C04_extra_fields_serialise`, `C04_extra_fields_roundtrip_fails`, `C05_declared_length_partial`, `C06_overlong_rejected`, `C06_parse_no_panic_fails`, `C07_zip64_values`, `C08_attribute_ids`, `C10_last_setting_wins_fails`, `C13_permissions_of_attribute`, `C14_headers_agree`, `C15_completes`, `C17_start_irrelevant`, `C17_completes`, `C21_lengths_partial`, `C22_completes`, `C24_after_hash_fails`, `C26_isolation`, `C27_out_of_bounds`, `C28_completes`, `C29_exact_partial`, `C32_offset`, `C32_offset_close`, `C33_append`, `C33_append_close`, `C33_append_entry`, `C34_whole`, `C34_program`, `C34_ops`, `C37_exchanged_fails`, `C37_descriptor_fails`, `C38_reports_open`, `C38_reports_stream`, `C38_reports_count`, `C42_completes`, `C44_compressed_size_fails`, `C47_deflate64_panics`, `C47_closed_fails`, `C48_twice_fails`, `C48_renamed_fails`, `C50_seekable`, `C50_shared`, `C50_checked`, `C50_streaming_fails`, `C53_disk_fails`, `C56_zip64_fails`, `C57_same_archive`, `C60_same`, `C60_refused`, `C60_stored`, `C71_ahead`, `C71_behind`, `C73_entry`, `C73_archive`, `C73_write_all`, `C78_open`, `C78_open_early`, `C78_close_stream`, `C79_path`, `C79_contained`, `C83_exchanged_fails`, `C85_exchanged_fails`, `C88_stream_fails`, `C89_irrelevant`, `C89_option_partial`, `C89_named`, `C89_other_method_fails`, `C92_beginning`, `C93_inserted`, `C93_flush`, `C94_error`, `C94_failing`, `C94_all`, `C94_streaming`, `C95_opens`, `C95_failing`, `C95_streaming`, `C95_wide`, `C96_whole`, `C96_counterpart`, `C96_stream`, `C97_null_fails`, `C98_walk`, `C100_large_fails`, `C104_stored`, `C104_left`, `C105_seekable`, `C105_shared`, `C105_checked`, `C106_isolation`, `C106_session`, `C107_plain`, `C107_exchanged_partial`, `C107_borrowed_fails`, `C107_descriptor_fails`, `C109_until_close`, `C109_any_time`, `C109_end`, `C109_late_fails`, `C110_until_close`, `C110_last`, `C110_end`, `C111_rebuilt`, `C111_empty`.

**propext** (5): `C07_no_zip64_field`, `C14_raw_directory_fails`, `C20_override`, `C20_kept`, `C47_compress_panics`.

**none** (2): `C05_declared_length_fails`, `C73_counting`.

<!-- end axioms -->
