{"id": "C01", "title": "Fixed-size records survive a write/read cycle", "statement": "Every fixed-size record the writer emits (local file header, central directory header, end-of-central-directory record, ZIP64 end-of-central-directory record, ZIP64 locator) is decoded by the reader back to exactly the field values that were encoded, and every byte string of the right length is the encoding of what it decodes to (except for the general purpose bits the crate does not interpret).", "quantifier": "all values of every field of every record (u16/u32/u64)", "why_tests_cant": "the field space is 2^150 and larger; tests use a handful of archives", "anchors": ["src/spec/parse.rs: as_slice/as_bytes/From<[u8;N]>", "src/spec/header.rs"]}
{"id": "C02", "title": "Fixed-size records have the layout the ZIP specification prescribes", "statement": "Each field of each emitted record sits little-endian at the offset and width APPNOTE 4.3.7/4.3.12/4.3.14/4.3.15/4.3.16 assigns to it, and records have the prescribed total length, so other ZIP tools read the same values.", "quantifier": "all values of every field", "why_tests_cant": "a swap of two same-width fields made consistently in encoder and decoder passes every self round-trip test", "anchors": ["src/spec/parse.rs", "src/spec/consts.rs"]}
{"id": "C03", "title": "General purpose flag bits", "statement": "Encoding the flag sets bit 0, 3 and 11 exactly when the entry is encrypted, has a data descriptor, or has UTF-8 names, and no other bit; decoding looks at those three bits only and ignores all others.", "quantifier": "all 8 flag values and all 65536 wire values", "why_tests_cant": "tests never use foreign flag bits", "anchors": ["src/spec/parse.rs: GeneralPurposeFlag::as_slice, From<u16>"]}
{"id": "C04", "title": "Extra fields survive a write/read cycle", "statement": "A list of extra fields serialised into a header and parsed back with the same header sizes gives the same list (known fields, Info-ZIP unicode fields and unknown fields).", "quantifier": "all lists of well-formed extra fields, any length, any content", "why_tests_cant": "unbounded lists with data-dependent framing", "anchors": ["src/spec/extra_field.rs: as_bytes, extra_field_from_bytes", "src/spec/parse.rs: parse_extra_fields"]}
{"id": "C05", "title": "The declared extra-field length equals the bytes emitted", "statement": "For every list of extra fields the length put in the header is exactly the number of extra-field bytes written after it.", "quantifier": "all extra field lists an entry may carry", "why_tests_cant": "a mismatch only appears for field combinations tests do not build (for example a ZIP64 field carrying a disk number)", "anchors": ["src/spec/extra_field.rs: count_bytes/as_bytes", "src/spec/header.rs: content_size"]}
{"id": "C06", "title": "Parsing arbitrary extra-field bytes is safe and exact", "statement": "For every byte string the extra-field parser terminates, never reads outside the string, and either reports an error or returns fields that account for a prefix of the string leaving at most four bytes; a field that claims more bytes than remain is rejected with an error and never accepted, and the parser does not panic.", "quantifier": "all byte strings and all header sizes", "why_tests_cant": "attacker-controlled input space is unbounded; debug/release arithmetic differs", "anchors": ["src/spec/parse.rs: parse_extra_fields", "src/spec/extra_field.rs"]}
{"id": "C07", "title": "ZIP64 extended information selects the right 64-bit values", "statement": "When reading, a 32-bit size equal to 0xFFFFFFFF is replaced by the 64-bit size of the first ZIP64 field if present, other sizes are kept; a 32-bit header offset equal to 0xFFFFFFFF is replaced by the ZIP64 offset, other offsets are kept; the 64-bit values are taken in the order uncompressed, compressed, offset.", "quantifier": "all header values and all ZIP64 field contents", "why_tests_cant": "boundary values around 4 GiB and all presence combinations", "anchors": ["src/base/read/mod.rs: get_combined_sizes, cd_record, lfh", "src/spec/extra_field.rs: zip64_extended_information_field_from_bytes"]}
{"id": "C08", "title": "Compression method and host attribute identifiers", "statement": "Every supported compression method maps to its APPNOTE number, different methods to different numbers, decoding a number gives back exactly the method it came from, and every other number is rejected with CompressionNotSupported carrying that number; likewise for the attribute host.", "quantifier": "all methods and all 65536 numbers", "why_tests_cant": "exhaustive over u16, in both directions", "anchors": ["src/spec/compression.rs", "src/spec/attribute.rs"]}
{"id": "C09", "title": "MS-DOS date and time survive building and reading back", "statement": "Building a ZipDateTime from year 1980..2107, month 0..15, day 0..31, hour 0..31, minute 0..63, second 0..63 and reading the components back gives the same values (seconds rounded down to even); every ZipDateTime is rebuilt exactly from its own components; components are always within those ranges.", "quantifier": "all component combinations and all 2^32 stored date/time words", "why_tests_cant": "bit-field packing over 2^32 states", "anchors": ["src/date/mod.rs", "src/date/builder.rs"]}
{"id": "C10", "title": "Date builder setters are total and independent", "statement": "Each setter of a fresh builder touches only its own component whatever the argument, never panics for any u32 argument (and for any year that does not overflow the subtraction of 1980), and setters of different components commute. (Setting a component twice is expected to keep the last value.)", "quantifier": "all argument values, all setter orders", "why_tests_cant": "whole i32/u32 domains and all call orders", "anchors": ["src/date/builder.rs"]}
{"id": "C11", "title": "Strings reported as UTF-8 really are UTF-8", "statement": "For every ZipString obtainable through the public constructors or from reading any archive, as_str/into_string succeed only if the stored bytes are valid UTF-8 (so the unchecked conversions are sound), and a ZipString built with the Utf8 encoding from invalid bytes reports Raw and keeps the bytes.", "quantifier": "all byte strings and all archives", "why_tests_cant": "soundness of unsafe code over all inputs", "anchors": ["src/string.rs", "src/base/read/mod.rs: detect_filename, detect_comment"]}
{"id": "C12", "title": "File names and comments survive a write/read cycle", "statement": "The file name and comment of a written entry are read back with the same bytes and, if they were UTF-8, as UTF-8 strings with the same text; native alternatives are preserved through the Info-ZIP unicode fields.", "quantifier": "all file names, comments, alternatives in all encodings", "why_tests_cant": "cross product of encodings, alternatives, emptiness and ASCII-ness of two strings", "anchors": ["src/base/write/entry_whole.rs: utf8_without_alternative", "src/base/write/entry_stream.rs: write_lfh", "src/base/read/mod.rs: detect_filename, detect_comment", "src/string.rs"]}
{"id": "C13", "title": "Unix permissions and external attributes", "statement": "Setting unix permissions is read back exactly, changes only the upper 16 bits of the external attribute, and the last setting wins.", "quantifier": "all modes and attributes (2^48)", "why_tests_cant": "bit-level frame condition", "anchors": ["src/entry/builder.rs: unix_permissions", "src/entry/mod.rs: unix_permissions"]}
{"id": "C14", "title": "Version needed to extract", "statement": "The version-needed value written for an entry is at least what APPNOTE 4.4.3 demands for its compression method (deflate 20, deflate64 21, bzip2 46, LZMA 63) and at least 20 for directories, never below 10; local and central header agree.", "quantifier": "all entries", "why_tests_cant": "depends on name encoding and method jointly", "anchors": ["src/spec/version.rs: as_needed_to_extract"]}
{"id": "C15", "title": "The end-of-central-directory locator finds the last signature", "statement": "For every byte string, if locating succeeds the returned offset is just after an occurrence of PK\\x05\\x06 and no occurrence starts later in the data; if an occurrence starts within the last 65557 bytes (18+4+65535) locating succeeds; if the data has no occurrence it fails with UnableToLocateEOCDR.", "quantifier": "all byte strings of every length", "why_tests_cant": "signatures straddling any buffer boundary at any distance", "anchors": ["src/base/read/io/locator.rs: eocdr, reverse_search_buffer"]}
{"id": "C16", "title": "Locating terminates with bounded I/O", "statement": "Locating the end record always terminates, performs at most 34 buffer fills however large the data, and never looks at bytes more than 65557+2044 before the end.", "quantifier": "all data lengths", "why_tests_cant": "work bound over all sizes", "anchors": ["src/base/read/io/locator.rs: eocdr"]}
{"id": "C17", "title": "Opening does not depend on how the source chunks its reads", "statement": "For every source and every schedule of short reads and pending polls, opening an archive either is interrupted by an I/O error or cancellation, or gives exactly the result obtained with full reads.", "quantifier": "all byte strings and all read schedules", "why_tests_cant": "all interleavings of short reads", "anchors": ["src/base/read/mod.rs: file, cd, cd_record", "src/base/read/io/mod.rs: read_bytes", "src/base/read/io/locator.rs"]}
{"id": "C18", "title": "Opening arbitrary bytes never panics", "statement": "Opening any byte string as an archive terminates with a ZipFile or an error; it does not panic.", "quantifier": "all byte strings", "why_tests_cant": "attacker-controlled input", "anchors": ["src/base/read/mod.rs: file, cd", "src/spec/parse.rs: parse_extra_fields"]}
{"id": "C19", "title": "An opened archive lists exactly the declared entries", "statement": "If opening succeeds, the number of entries equals the (ZIP64-combined) declared count, they are decoded from consecutive central directory records starting at the declared offset, each of which begins with the central directory signature, and disk numbers/counts that indicate a spanned archive have been rejected.", "quantifier": "all byte strings for which opening succeeds", "why_tests_cant": "any input accepted by the parser", "anchors": ["src/base/read/mod.rs: file, cd"]}
{"id": "C20", "title": "ZIP64 end record overrides exactly the saturated fields", "statement": "When a ZIP64 end record is present, a field of the classic end record is replaced by its ZIP64 value iff it holds its maximal value; all other fields are kept; without one all fields are kept.", "quantifier": "all pairs of records", "why_tests_cant": "all saturation combinations", "anchors": ["src/base/read/io/combined_record.rs"]}
{"id": "C21", "title": "Declared string lengths are honoured", "statement": "Every file name, extra field and comment of an opened archive has exactly the length its record declares; a record cut short is an error.", "quantifier": "all byte strings", "why_tests_cant": "truncation at any byte", "anchors": ["src/base/read/io/mod.rs: read_bytes, read_string", "src/base/read/mod.rs: cd_record, lfh, file"]}
{"id": "C22", "title": "A stored entry reader yields exactly the entry's bytes", "statement": "For every sequence of reads of any sizes under any schedule, the bytes delivered for a Stored entry are a prefix of the compressed_size bytes that follow its local header (clipped at end of data), in order, without loss or duplication; zero is returned only when all were delivered.", "quantifier": "all archives, read sizes and schedules", "why_tests_cant": "all chunkings", "anchors": ["src/base/read/io/entry.rs", "src/base/read/io/compressed.rs", "src/base/read/io/owned.rs", "src/entry/mod.rs: seek_to_data_offset"]}
{"id": "C23", "title": "The running checksum covers exactly the bytes delivered", "statement": "After any sequence of reads, compute_hash returns the CRC-32 of the concatenation of all bytes delivered since the reader was created (or since the previous compute_hash).", "quantifier": "all read sequences and schedules", "why_tests_cant": "all chunkings", "anchors": ["src/base/read/io/hashed.rs", "src/base/read/io/entry.rs: compute_hash"]}
{"id": "C24", "title": "Checked reads accept exactly matching data and catch burst errors", "statement": "read_to_end_checked returns Ok only if the CRC-32 of everything the reader delivered equals the CRC recorded for the entry, and returns CRC32CheckError otherwise; in particular any corruption of a stored entry confined to a window of four consecutive bytes is always reported.", "quantifier": "all contents and all corruptions inside a 4-byte window", "why_tests_cant": "error patterns x contents is unbounded", "anchors": ["src/base/read/io/entry.rs: read_to_end_checked", "src/base/read/io/hashed.rs"]}
{"id": "C25", "title": "Reading an entry does not depend on what was read before", "statement": "With the seekable reader, opening entry i and reading it gives the same bytes and errors whatever entries were opened, partially read or abandoned before.", "quantifier": "all histories of opens and reads", "why_tests_cant": "all histories", "anchors": ["src/base/read/seek.rs", "src/entry/mod.rs: seek_to_data_offset"]}
{"id": "C26", "title": "Concurrent in-memory/file entry readers do not interfere", "statement": "With the in-memory (or path) reader, any interleaving of reads by any number of entry readers gives each reader the same bytes as if it ran alone.", "quantifier": "all interleavings of any number of readers", "why_tests_cant": "all schedules", "anchors": ["src/base/read/mem.rs", "src/tokio/read/fs.rs"]}
{"id": "C27", "title": "Entry indices are checked", "statement": "Opening entry i succeeds in selecting an entry exactly when i is less than the number of entries and otherwise returns EntryIndexOutOfBounds without touching the source; the entry selected is the i-th listed.", "quantifier": "all archives and indices", "why_tests_cant": "all indices", "anchors": ["src/base/read/seek.rs", "src/base/read/mem.rs", "src/tokio/read/fs.rs"]}
{"id": "C28", "title": "The streaming reader traverses a written archive entry by entry", "statement": "For an archive of n >= 1 successfully written entries, alternating next and skip (or read-to-end and done, or reading some bytes and then skip) visits all entries in order with their names, methods and data and then reports the end of entries (None).", "quantifier": "all archives written by the crate without abandoned entries", "why_tests_cant": "any number of entries and contents", "anchors": ["src/base/read/stream.rs", "src/base/read/mod.rs: lfh"]}
{"id": "C29", "title": "done and skip leave the stream at the next header", "statement": "done succeeds only if the entry's data has been fully read (otherwise EOFNotReached); done and skip leave the source exactly after the entry's data (and data descriptor), so the next record can be read.", "quantifier": "all entries, read amounts", "why_tests_cant": "all partial-read positions", "anchors": ["src/base/read/stream.rs: done, skip"]}
{"id": "C30", "title": "Data descriptors are consumed exactly", "statement": "After an entry with a data descriptor the streaming reader consumes 16 bytes if they start with the descriptor signature and 12 bytes otherwise.", "quantifier": "all byte strings", "why_tests_cant": "signature-less descriptors and their ambiguity", "anchors": ["src/base/read/stream.rs: consume_data_descriptor"]}
{"id": "C31", "title": "The streaming reader rejects what it cannot read", "statement": "Encrypted entries, stored entries with a data descriptor, unknown methods and unknown signatures are rejected with the documented errors, never returned as entries.", "quantifier": "all local headers", "why_tests_cant": "all header values", "anchors": ["src/base/read/mod.rs: lfh"]}
{"id": "C32", "title": "The writer's offset equals the number of bytes the sink accepted", "statement": "After any history of operations with any schedule of short writes, pending polls, write errors and cancellations, the writer's notion of its position equals the number of bytes the sink has accepted.", "quantifier": "all histories and sink schedules", "why_tests_cant": "all crash points and partial writes", "anchors": ["src/base/write/io/offset.rs"]}
{"id": "C33", "title": "The writer only appends and never closes the sink", "statement": "Every operation only appends to the sink's bytes, and neither closing an entry nor closing the archive closes or flushes the sink.", "quantifier": "all histories and schedules", "why_tests_cant": "all histories", "anchors": ["src/base/write/compressed_writer.rs: ShutdownIgnoredWriter", "src/base/write/mod.rs: close"]}
{"id": "C34", "title": "Output does not depend on how the sink chunks its writes", "statement": "Two runs of the same operation from the same writer state under different sink schedules that both succeed produce identical bytes and identical state (for stored and whole entries).", "quantifier": "all operations and pairs of schedules", "why_tests_cant": "all schedules", "anchors": ["src/base/write/entry_whole.rs: write", "src/base/write/entry_stream.rs"]}
{"id": "C35", "title": "A rejected whole entry leaves no trace", "statement": "If write_entry_whole fails validation (file name, extra field or comment too long, ZIP64 needed for a size or offset) nothing has been written to the sink and the entry is not listed.", "quantifier": "all entries and writer states", "why_tests_cant": "all error causes and states", "anchors": ["src/base/write/entry_whole.rs: write"]}
{"id": "C36", "title": "Recorded header offsets point at the entry's local header", "statement": "In every archive produced by any history, the offset recorded for each listed entry is the position of that entry's local header signature in the output.", "quantifier": "all histories including failed and abandoned entries", "why_tests_cant": "all histories", "anchors": ["src/base/write/entry_whole.rs", "src/base/write/entry_stream.rs"]}
{"id": "C37", "title": "Streamed entries record the checksum and sizes of the data written", "statement": "However the data of a streamed entry is split into writes and however the sink accepts them, the recorded CRC is the CRC-32 of the accepted bytes, the uncompressed size is their number, and the compressed size is the number of bytes emitted for them.", "quantifier": "all write splits and schedules", "why_tests_cant": "all chunkings", "anchors": ["src/base/write/entry_stream.rs: close, poll_write"]}
{"id": "C38", "title": "force_no_zip64 keeps ZIP64 structures out", "statement": "With force_no_zip64 (and not force_zip64) no ZIP64 field or end record is ever written, and entries, offsets or counts that would need them are reported as Zip64Needed errors.", "quantifier": "all histories", "why_tests_cant": "limits at 4 GiB and 65535 entries", "anchors": ["src/base/write/mod.rs", "src/base/write/entry_whole.rs", "src/base/write/entry_stream.rs"]}
{"id": "C39", "title": "ZIP64 structures are emitted whenever a value does not fit", "statement": "If an entry size or header offset exceeds 0xFFFFFFFF the central record carries the true 64-bit value in a ZIP64 field; if the entry count or directory offset exceeds its field, the ZIP64 end record carries the true value, and the reader recovers it.", "quantifier": "all sizes, offsets and counts", "why_tests_cant": "multi-gigabyte archives at exact boundaries", "anchors": ["src/base/write/entry_whole.rs: enforce_zip64_sizes, enforce_zip64_offset", "src/base/write/mod.rs: close"]}
{"id": "C40", "title": "Closing writes a consistent end record", "statement": "The end records give the true number of listed entries, directory offset and directory size, and the ZIP64 locator points at the ZIP64 end record.", "quantifier": "all histories", "why_tests_cant": "all sizes", "anchors": ["src/base/write/mod.rs: close"]}
{"id": "C41", "title": "Archive round-trip: metadata", "statement": "For every history of writes that ends in a successful close, opening the produced bytes lists exactly the successfully written entries in order with the same name bytes, method, date, attributes, CRC, sizes and header offset.", "quantifier": "all histories, entries and contents", "why_tests_cant": "unbounded combinations of entries, sizes and modes", "anchors": ["src/base/write/*", "src/base/read/mod.rs"]}
{"id": "C42", "title": "Archive round-trip: contents", "statement": "For every listed entry of such an archive, opening it by index and reading it with the CRC check succeeds and yields exactly the data that was written (for any lossless codec).", "quantifier": "all histories, entries, contents", "why_tests_cant": "unbounded", "anchors": ["src/base/write/*", "src/base/read/seek.rs", "src/base/read/io/entry.rs"]}
{"id": "C43", "title": "Failed, cancelled and abandoned entries are harmless", "statement": "Entries whose writing failed, was cancelled at any point, or whose stream writer was dropped before close are not listed and do not affect any other entry of the archive.", "quantifier": "all crash points of all operations in a history", "why_tests_cant": "all crash points", "anchors": ["src/base/write/entry_whole.rs", "src/base/write/entry_stream.rs", "src/base/write/mod.rs"]}
{"id": "C44", "title": "Streamed and whole writes are equivalent for the reader", "statement": "Writing the same entry and data as a whole or as a stream (any split) yields archives whose listed entry has the same name, method, CRC, sizes and content.", "quantifier": "all entries, data, splits", "why_tests_cant": "all chunkings", "anchors": ["src/base/write/entry_whole.rs", "src/base/write/entry_stream.rs"]}
{"id": "C45", "title": "The archive comment round-trips", "statement": "The comment set on the writer is the comment of the opened archive.", "quantifier": "all comments", "why_tests_cant": "lengths above 65535, embedded signatures", "anchors": ["src/base/write/mod.rs: close", "src/base/read/mod.rs: file"]}
{"id": "C46", "title": "Precompressed data is stored verbatim", "statement": "write_entry_whole_precompressed and write_entry_stream_precompressed emit exactly the bytes given and record exactly the caller's CRC and uncompressed size, with the compressed size being the number of bytes given.", "quantifier": "all entries and data", "why_tests_cant": "all values", "anchors": ["src/base/write/entry_whole.rs", "src/base/write/entry_stream.rs", "src/base/write/compressed_writer.rs"]}
{"id": "C47", "title": "The writer panics only for Deflate64", "statement": "No operation of the writer panics on any input, other than asking it to compress with Deflate64.", "quantifier": "all entries, data, histories and schedules", "why_tests_cant": "length-dependent unwraps", "anchors": ["src/spec/extra_field.rs: as_bytes (unwrap)", "src/base/write/entry_whole.rs: compress", "src/base/write/compressed_writer.rs: from_raw"]}
{"id": "C48", "title": "Entries read from an archive can be written again", "statement": "An entry taken from an opened archive can be passed to a writer together with its data and comes out of the new archive with the same metadata and content.", "quantifier": "all entries of all archives", "why_tests_cant": "arbitrary foreign extra fields", "anchors": ["src/entry/builder.rs: From<ZipEntry>", "src/base/write/entry_whole.rs"]}
{"id": "C49", "title": "Dates convert to and from chrono", "statement": "Converting a chrono date-time to a ZIP date-time never panics and keeps everything but the odd second; converting back yields exactly the stored fields when they form a valid date and nothing otherwise; the stored numbers order like the dates.", "quantifier": "all dates chrono can represent, and all stored date words", "why_tests_cant": "2^32 stored values and leap-year rules", "anchors": ["src/date/mod.rs: as_chrono, from_chrono", "src/date/builder.rs"]}
{"id": "C50", "title": "Reading entries never panics", "statement": "No sequence of calls on a reader (opening entries, reading, checked reads, skipping, finishing, streaming on to the next entry) panics, whatever the data, the listing and the behaviour of the source.", "quantifier": "all data, listings, codecs, schedules and call sequences", "why_tests_cant": "arbitrary hostile data and interleavings", "anchors": ["src/base/read/io/entry.rs", "src/base/read/stream.rs", "src/base/read/seek.rs", "src/base/read/mem.rs", "src/tokio/read/fs.rs", "src/base/read/mod.rs: lfh"]}
{"id": "C51", "title": "An entry is read from its own bytes only", "statement": "What any sequence of calls on a reader returns depends only on the local header's signature and two lengths and the declared data of the entries it opens: two archives that agree there cannot be told apart, whatever else they contain (the rest of the header, the local name and extra field included) and whatever the source does.", "quantifier": "all pairs of archives, listings, codecs, schedules and call sequences, seekable and shared readers", "why_tests_cant": "pairs of arbitrary archives and all interleavings of calls", "anchors": ["src/base/read/seek.rs", "src/base/read/mem.rs", "src/tokio/read/fs.rs", "src/base/read/io/entry.rs", "src/entry/mod.rs: seek_to_data_offset"]}
{"id": "C52", "title": "Calls within the limits succeed", "statement": "On an archive that may use ZIP64, writing an entry (at once or streamed) whose name, comment and extra fields leave room for what the writer adds, with a supported method, never fails for a reason of the crate's own, however large the data, the offset and the number of entries; and closing the archive does not either. With a sink that takes at least one byte at a time the call completes.", "quantifier": "all writer states, entries within the limits, data, codecs, schedules and programs", "why_tests_cant": "all archive states including offsets beyond 4 GiB and more than 65535 entries", "anchors": ["src/base/write/entry_whole.rs: write", "src/base/write/entry_stream.rs: from_raw, write_lfh, close", "src/base/write/mod.rs: close"]}
{"id": "C53", "title": "Records do not overlap", "statement": "In every closed archive the records of the listed entries (header, name, extra field, data, descriptor) follow one another in the order of the directory without overlapping, and end before the directory begins, whatever failed, was cancelled or abandoned on the way. If every call was listed, they fill the file from its first byte to the directory.", "quantifier": "all programs of calls, codecs and schedules on a fresh writer", "why_tests_cant": "all programs with all interleavings of failures, partial writes and abandoned streams", "anchors": ["src/base/write/mod.rs: write_entry_whole, write_entry_stream, close", "src/base/write/entry_whole.rs: write", "src/base/write/entry_stream.rs: close"]}
{"id": "C54", "title": "Extra fields survive", "statement": "Custom extra fields given to an entry are shown by the reader in the same order and with the same content; every field is if the name and comment are plain UTF-8; and the entry shows exactly one ZIP64 field if it needs one and none otherwise.", "quantifier": "all programs of calls, codecs, schedules and readers", "why_tests_cant": "all lists of fields in combination with names, sizes, offsets beyond 4 GiB and failures on the way", "anchors": ["src/base/write/entry_whole.rs: write", "src/base/write/entry_stream.rs: write_lfh, close", "src/base/read/mod.rs: cd_record", "src/spec/parse.rs: parse_extra_fields"]}
{"id": "C55", "title": "Header offset and size lead to the data", "statement": "For every entry of a written archive, header_offset() + header_size() is where its data starts, plus exactly what the directory record adds to the extra field of the local header: 8 bytes for streamed entries when ZIP64 is allowed, 12 bytes for whole entries beyond 4 GiB whose sizes fit in 32 bits, otherwise nothing.", "quantifier": "all programs of calls, codecs, schedules and readers", "why_tests_cant": "offsets beyond 4 GiB, all extra fields and names", "anchors": ["src/base/write/entry_whole.rs: write", "src/base/write/entry_stream.rs: write_lfh, close", "src/base/read/mod.rs: cd_record", "src/spec/parse.rs: parse_extra_fields", "src/entry/mod.rs: header_offset, header_size"]}
{"id": "C56", "title": "Versions and host system", "statement": "Every directory record of a written archive names Unix and specification 6.3 as its maker (so that the upper half of the external attributes is a Unix mode), it and the local header name the same version needed, which is at least what the compression method and the directory feature demand, and at least 4.5 if the record has a ZIP64 field; the ZIP64 end record names the same maker and demands at least 4.5.", "quantifier": "all programs of calls, codecs and schedules", "why_tests_cant": "joint dependence on method, name, encoding and ZIP64, over all histories of calls", "anchors": ["src/spec/version.rs: as_needed_to_extract, as_made_by", "src/base/write/entry_whole.rs: write", "src/base/write/entry_stream.rs: write_lfh, close", "src/base/write/mod.rs: close"]}
{"id": "C57", "title": "What the sink held before does not matter", "statement": "A program of writer calls gets the same results on a sink that already holds data as on an empty one, and appends exactly the same archive; nothing the sink held before is changed.", "quantifier": "all programs of calls, configurations, codecs, schedules and previous contents", "why_tests_cant": "relates two runs over all programs, schedules and contents", "anchors": ["src/base/write/mod.rs: ZipFileWriter::new, close", "src/base/write/io/offset.rs: AsyncOffsetWriter", "src/base/write/entry_whole.rs: write", "src/base/write/entry_stream.rs: from_raw, close"]}
{"id": "C58", "title": "Opening looks at the end records and the directory only", "statement": "Whether opening a file succeeds, and the listing it gives, depend only on the last end record with the 20 bytes before it and the archive comment, the ZIP64 end record when there is a locator, and the declared directory records. Local headers and entry data can be replaced by anything of the same length, and bytes that bring no end record of their own can follow the archive.", "quantifier": "all pairs of files with the same end records and directory in the same places, all source schedules that are not interrupted", "why_tests_cant": "compares two runs over all files, replacements and schedules", "anchors": ["src/base/read/mod.rs: file, cd, get_combined_sizes", "src/base/read/io/locator.rs: eocdr", "src/spec/header.rs, src/spec/parse.rs"]}
{"id": "C59", "title": "Cutting an archive short is noticed", "statement": "Opening a file that was cut short, at whatever byte, reports an error rather than an incomplete listing or a panic.", "quantifier": "all files, all cuts, all source schedules", "why_tests_cant": "every cut of every archive; depends on what the remaining bytes happen to look like", "anchors": ["src/base/read/io/locator.rs: eocdr", "src/base/read/mod.rs: file", "src/spec/parse.rs: EndOfCentralDirectoryHeader::from_reader", "src/base/read/io/mod.rs: read_bytes, read_string"]}
{"id": "C60", "title": "Closing an entry's writer through AsyncWrite first", "statement": "Calling AsyncWrite::close on the writer of a streamed entry and then closing the entry gives exactly the archive that closing the entry alone gives. Of a compressed entry, no write or flush succeeds after it and the data stay what they were; of a stored one, the call does nothing and writing may go on.", "quantifier": "all writers, entries, codecs, calls before and after, sink schedules, including closes the sink cut short", "why_tests_cant": "all interleavings of writes, flushes and closes with partial writes of the sink", "anchors": ["src/base/write/entry_stream.rs: poll_write, poll_flush, poll_close, close", "src/base/write/compressed_writer.rs: CompressedAsyncWriter, ShutdownIgnoredWriter"]}
{"id": "C61", "title": "Encrypted entries are not served as data", "statement": "No reader returns an entry whose header has the encryption bit set: its bytes are ciphertext, not the entry's data.", "quantifier": "all archives, builds and source schedules; streaming, seekable and shared readers", "why_tests_cant": "all archives with the bit set and all schedules", "anchors": ["src/base/read/mod.rs: lfh (encrypted), cd_record, detect_cd", "src/base/read/seek.rs", "src/base/read/stream.rs: next_entry"]}
{"id": "C62", "title": "The two kinds of reader see the same archive", "statement": "Reading an archive front to back (streaming) and reading it through its directory give the same entries in the same order: name, method, date, checksum and sizes as far as known in advance, and data.", "quantifier": "all archives the writer produces, codecs, builds, visiting plans and source schedules", "why_tests_cant": "all programs of calls, both readers, all schedules and plans", "anchors": ["src/base/read/stream.rs", "src/base/read/seek.rs", "src/base/read/mod.rs: lfh, cd_record", "src/base/write/*"]}
{"id": "C63", "title": "What a reader returns is bounded by the size of the file", "statement": "Whatever counts and sizes a file declares, the records, names and comments in a listing, and the headers, names and uncompressed data the streaming reader returns, lie one after the other in the file, so their total size is at most the file's; no two entries share bytes.", "quantifier": "all files, builds, codecs, plans and source schedules", "why_tests_cant": "all malformed files with arbitrary declared counts, sizes and offsets", "anchors": ["src/base/read/mod.rs: cd, cd_record, lfh", "src/base/read/stream.rs: next_with_entry, done, skip", "src/base/read/seek.rs"]}
{"id": "C64", "title": "Reading can be resumed after a failure", "statement": "However often reading an entry to its end fails half-way or is dropped, carrying on with the same entry reader loses nothing and repeats nothing: the bytes handed out before each failure and by the read that finally succeeds are together the entry's data, the checksum covers all of them, and after k source errors at most k further attempts are needed.", "quantifier": "all entries, methods, sequences of calls, buffer sizes and source schedules with errors and drops at any point", "why_tests_cant": "all interleavings of failures, drops and partial reads", "anchors": ["src/base/read/io/entry.rs:54-113", "src/base/read/io/hashed.rs:45-56", "src/base/read/io/compressed.rs:82-104"]}
{"id": "C65", "title": "Reading does not depend on how the source answers", "statement": "Over the same data, well-formed or not, two clients that skip and read the same entries see the same entries and data or get the same error, whatever short reads and pending polls their sources produce, whatever the sizes of their buffers and, for seekable readers, wherever the source stands; only a failing source or a dropped future makes a difference.", "quantifier": "all byte strings, codecs, builds, visiting plans, listings, buffer sizes and pairs of source schedules", "why_tests_cant": "all pairs of interleavings of short reads over all malformed inputs", "anchors": ["src/base/read/stream.rs", "src/base/read/seek.rs", "src/base/read/io/*.rs", "src/entry/mod.rs:187-211"]}
{"id": "C66", "title": "Requests made of the source are bounded by the size of the file", "statement": "Whatever counts, lengths and offsets a file declares and however few bytes at a time the source answers with, opening makes at most two requests per byte of the file and a constant number more, getting at an entry takes at most 34, and streaming makes at most two per byte and a constant number more.", "quantifier": "all files, builds, listings, plans and source schedules", "why_tests_cant": "a work bound over all malformed files and all schedules", "anchors": ["src/base/read/mod.rs: file, cd, cd_record, lfh", "src/base/read/io/locator.rs", "src/entry/mod.rs:187-211", "src/base/read/stream.rs"]}
{"id": "C67", "title": "A whole archive can be copied through the library", "statement": "Open any archive, read each of its entries with the check, and write each, with its entry description and data, to a new archive in the same order, then its comment: the new archive opens with the same entries in the same order, the same checksums, sizes and data, and the same comment, and it can be copied again in the same way.", "quantifier": "all source archives that open, whoever made them, all codecs, builds, source and sink schedules", "why_tests_cant": "all foreign archives and all schedules; tests only write archives from entries they built themselves", "anchors": ["src/base/read/mod.rs: file, cd, cd_record", "src/base/write/mod.rs", "src/base/write/entry_whole.rs", "src/entry/mod.rs", "src/entry/builder.rs"]}
{"id": "C68", "title": "Reading from a stream with the check gives the data", "statement": "A client of the streaming reader that goes through an archive written by the crate and reads some of its entries with read_to_end_checked (and skips, reads or partly reads the others) gets the data of the entries that it checks, without a checksum error, and goes on to the next entry.", "quantifier": "all programs of calls, codecs, writer configurations, plans of visits, buffer sizes and source schedules", "why_tests_cant": "all mixtures of whole and streamed entries, of checked and unchecked reads, and of short reads; the tests check one stored entry", "anchors": ["src/base/read/io/entry.rs: read_to_end_checked", "src/base/read/stream.rs: next_with_entry, done, skip", "src/base/read/mod.rs: lfh", "src/base/write/entry_stream.rs: write_lfh, close"]}
{"id": "C69", "title": "Streaming a file that was cut short", "statement": "If a file is cut short after n bytes, a client of the streaming reader that goes through it gets the same as from the whole file as long as it needs no byte beyond the cut; if it needs more, it gets an error. In particular a client that reads on until it is told that there are no more entries gets all of them, with their data, or an error.", "quantifier": "all files and all written archives, cuts, codecs that read front to back, plans of visits, buffer sizes and source schedules", "why_tests_cant": "every cut point of every file under every schedule; the tests read complete files only", "anchors": ["src/base/read/mod.rs: lfh", "src/base/read/stream.rs: next_without_entry, next_with_entry, skip, done", "src/base/read/io/entry.rs: poll_read", "src/base/read/io/mod.rs: read_bytes", "src/base/read/stream.rs: consume_data_descriptor"]}
{"id": "C70", "title": "Damage to an entry stays there and is noticed", "statement": "If bytes in the record of one entry of an archive written by the crate (its local header, its data, its descriptor) are changed, the archive still opens with the same listing and every other entry still reads back its data. A checked read of the damaged entry never returns data with another checksum than that of the original, and if the entry is stored and the change is confined to four consecutive bytes of its data, it always fails with a checksum error.", "quantifier": "all programs of calls (with failed and abandoned entries), codecs, writer configurations, changes, buffer sizes and source schedules", "why_tests_cant": "every change of every byte of every archive; the tests read undamaged archives only", "anchors": ["src/base/read/mod.rs: file", "src/base/read/seek.rs: reader_with_entry", "src/base/read/io/entry.rs: read_to_end_checked", "src/entry/mod.rs: seek_to_data_offset", "src/base/write/entry_whole.rs: write"]}
{"id": "C71", "title": "Streaming depends only on the bytes ahead, up to where the client gets", "statement": "Two sources with the same bytes ahead of them that answer alike show a streaming client the same entries, data and failures, whatever stood before; the client gets equally far. What follows the point that the client reached has no influence either. Of an archive written by the crate a streaming client needs only the entries' records and the four bytes that begin the directory, wherever in a file they stand.", "quantifier": "all byte sequences, codecs, plans of the client, positions and source schedules; for the last sentence all programs of calls as in C28", "why_tests_cant": "it compares runs over all files with the same bytes in some range", "anchors": ["src/base/read/stream.rs", "src/base/read/mod.rs: lfh", "src/base/read/io/entry.rs"]}
{"id": "C72", "title": "Damage in the data of an entry while streaming", "statement": "If the data of a stored entry is changed and nothing else, a streaming client gets the same entries and data before and after it as from the undamaged file, or the same error; what it sees of the entry is what stands in the file. A client that checks is told if the checksum does not match, and always if the change is confined to four consecutive bytes. The data of a compressed entry does not have this property: the rest of the archive can become unreachable.", "quantifier": "all files in which a streaming client reaches and passes a stored entry, all changes of its data, all plans, codecs and source schedules", "why_tests_cant": "all changes of all entries in all files, and all plans of the client after it", "anchors": ["src/base/read/stream.rs: skip, done", "src/base/read/io/entry.rs: read_to_end_checked"]}
{"id": "C73", "title": "Programs that decide as they go, and vectored writes", "statement": "A program that decides on each call by the results of the calls before it, at the level of the archive or of an open entry, and that may use vectored writes, has the same results and effects as some program that is a fixed list of plain calls; so the other properties hold of it. A client that keeps writing until all its buffers are written, vectored or not, needs at most one call per byte; at the end either all data was accepted in order, or the last call failed or accepted nothing and a proper beginning of the data was accepted.", "quantifier": "all strategies (functions of the results so far), all buffers, sink behaviours, codecs and numbers of calls", "why_tests_cant": "it quantifies over all strategies of the caller", "anchors": ["src/base/write/entry_stream.rs: impl AsyncWrite for EntryStreamWriter", "src/base/write/io/offset.rs: poll_write_vectored", "src/base/write/mod.rs"]}
{"id": "C74", "title": "Exactly which files open", "statement": "Unless the source fails or the future is dropped, a file opens if and only if: its last end-record signature is within 67456 bytes of the end and the record is complete; the ZIP64 end record, if a locator precedes the end record, lies in the file; the disk numbers and the two entry counts agree; the count can be allocated; and there are that many records one after the other at the declared offset, each with its signature, its 46 bytes, a known method, and an extra field made of complete blocks up to a rest of at most four bytes, with complete Info-ZIP Unicode fields. The entry at an index of an open file can be got at if and only if the index is in range and a local header stands where the directory says.", "quantifier": "all files (of any length), all source schedules, both builds, all indices", "why_tests_cant": "it is an equivalence over all byte strings; tests only show that some open and some do not", "anchors": ["src/base/read/mod.rs: file, cd, cd_record", "src/base/read/io/locator.rs: eocdr", "src/base/read/seek.rs: reader_with_entry", "src/file/mod.rs"]}
{"id": "C75", "title": "Exactly which headers the streaming reader takes, and what it shows", "statement": "Unless the source fails or the future is dropped, next returns an entry if and only if a complete local header stands at the position, of a known method, not encrypted, not stored with a data descriptor, and with a well-formed extra field; it reports the end if and only if a directory-record signature stands there. The entry shows the method, flags, time, checksum, sizes (from the ZIP64 field where it has them), name and extra fields of that header, and no comment or attributes; its data is limited to the declared length, or not limited if there is a descriptor.", "quantifier": "all bytes ahead, all source schedules, both builds", "why_tests_cant": "it is an equivalence over all byte strings", "anchors": ["src/base/read/mod.rs: lfh", "src/base/read/stream.rs: next_without_entry, next_with_entry"]}
{"id": "C76", "title": "The checksum is CRC-32", "statement": "The checksum of data is its CRC-32 as ISO 3309 and ITU-T V.42 define it, by division of polynomials over two elements, and no other number; however the data is split between updates. So a checked read only returns data with the recorded CRC-32, and the directory record of a listed entry has the CRC-32 of its data.", "quantifier": "all byte strings, all splittings, all programs and codecs", "why_tests_cant": "test vectors pin the checksum of a few strings; the definition is about all", "anchors": ["src/base/read/io/hashed.rs", "src/base/read/io/entry.rs: read_to_end_checked", "src/base/write/entry_whole.rs", "src/base/write/entry_stream.rs"]}
{"id": "C77", "title": "Exactly what is reported about what cannot be opened or read", "statement": "Unless the source fails or the future is dropped, the error (or panic) that opening a file, getting at an entry, or next on a stream ends with is determined by the first thing wrong with the bytes, and every error occurs in exactly that case: no end record within reach: unable to locate it; a record (end record, ZIP64 end record, directory record, local header) cut by the end of the file: unexpected end of file; disk numbers or counts that differ: split files not supported; a count that cannot be allocated: panic; a wrong signature: unexpected header with the bytes found there; an unknown method: that number; an extra-field block longer than what is left: a panic or, without overflow checks, a wrapped count; an Info-ZIP field too short: that field; an encrypted entry, or a stored one with a data descriptor, in a stream: not supported; an index out of range: that.", "quantifier": "all files shorter than 2^64 bytes, all source schedules, both builds, all indices, all positions in a stream", "why_tests_cant": "it says for every byte string which error comes first, and that no other input produces it", "anchors": ["src/base/read/mod.rs: file, cd, cd_record, lfh", "src/base/read/io/locator.rs: eocdr", "src/base/read/io/combined_record.rs", "src/utils.rs: assert_signature", "src/error.rs", "src/base/read/seek.rs", "src/base/read/stream.rs", "src/spec/parse.rs"]}
{"id": "C78", "title": "Exactly what the writer refuses", "statement": "Unless the sink fails or the future is dropped, the result of every writer call is determined by the first condition that holds in a fixed list, and is success if none does. Whole entry: Deflate64 asked for (panic); ZIP64 forbidden and a size or the offset beyond 32 bits (Zip64Needed); counted extra fields, with the ZIP64 field and the Unicode fields the writer adds, beyond 65535 (ExtraFieldTooLarge); name, then comment beyond 65535; and after the entry is written: no room for a ZIP64 field with the offset alone; ZIP64 forbidden and 65535 entries already there (Zip64Needed, too many files). Opening a stream: ZIP64 forbidden and a declared size beyond 32 bits; extra fields with the 20 bytes of an empty ZIP64 field; name; Deflate64 (panic, after the header). Closing a stream: ZIP64 forbidden and a size or the offset beyond; ZIP64 field grown by the offset; comment; too many. Closing the archive: ZIP64 forbidden and the directory beyond 32 bits. The first five (whole) and first three (stream) refuse whatever the sink would do, and write nothing.", "quantifier": "all writers, entries, data and encoder outputs below 2^64 bytes, all sink schedules, all stream sessions and programs", "why_tests_cant": "it fixes for every combination of oversize inputs which error is reported first and that nothing else is ever refused", "anchors": ["src/base/write/entry_whole.rs: write", "src/base/write/entry_stream.rs: write_lfh, close", "src/base/write/mod.rs: close", "src/base/write/io/mod.rs: CombinedCentralDirectoryRecord", "src/spec/extra_field.rs: count_bytes"]}
{"id": "C79", "title": "The extraction example stays inside its directory", "statement": "Whatever archive is given to the example program that extracts files (examples/file_extraction.rs), on Unix: every entry's path is the output directory followed by ordinary components (not empty, no slash, not '.' or '..'); nothing changes on disk but strictly below the output directory; and nothing that existed is changed, replaced or removed. This holds whether the program comes to its end or stops, at any point and for any reason. It rests on the file name sanitizer returning a string without a slash that is not '.' or '..'.", "quantifier": "all byte strings as archives, all source schedules and faults, all failures of the operating system at any request, all disks, all output directories, all sanitizers with that contract", "why_tests_cant": "tests try a few hostile names; this is about all of them, and about every point at which the program may stop", "anchors": ["examples/file_extraction.rs: sanitize_file_path, unzip_file"]}
{"id": "C80", "title": "What the extraction example leaves behind", "statement": "If the example program comes to its end then the archive opened and every name is UTF-8; where an entry whose name ends in a slash belongs there is a directory; where any other entry belongs there was nothing and is now a file with exactly what a reader of that entry gives; a file shares its place with no other entry; and nothing else is new on disk but directories on the way to an entry. (The program does not verify checksums: an entry with a wrong one is extracted without complaint.)", "quantifier": "all archives, schedules, operating systems, disks and output directories for which the program comes to its end", "why_tests_cant": "it speaks of every entry of every archive and of everything on the disk", "anchors": ["examples/file_extraction.rs: unzip_file", "src/base/read/seek.rs: reader_without_entry"]}
{"id": "C81", "title": "Exactly when the extraction example comes to its end", "statement": "With a source and a disk that do not fail, the example program that extracts files comes to its end if and only if: the archive opens; every entry's name is UTF-8; every entry can be opened and every file read to its end; no file on the disk is in an entry's way and nothing is where a file belongs; something is left of every file's name after its last slash (of either kind) once sanitized; and no file's place is the place of another entry or a directory on the way to it.", "quantifier": "all byte strings as archives, all well-formed disks and output directories, all sanitizers with their contract, all codecs", "why_tests_cant": "an equivalence over all archives and disks; it also says that nothing else stops the program", "anchors": ["examples/file_extraction.rs: sanitize_file_path, unzip_file", "src/base/read/seek.rs: reader_without_entry"]}
{"id": "C82", "title": "Packing and unpacking", "statement": "An archive finished by any program using the writer (whole entries and streams, abandoned and failed calls among them) that says what it means in the sense of C41/C42, extracted by the example program where there is room for its entries and none of its files is in the way of another: the program comes to its end; where each listed entry belongs there is a directory if its name ends in a slash, and otherwise a file with exactly the data that was packed; nothing else is new but directories on the way; nothing that was there changed.", "quantifier": "all programs, sink schedules, lossless codecs, entries with UTF-8 names, disks, output directories", "why_tests_cant": "it joins the writer, the reader and the extraction program over all programs and all data", "anchors": ["examples/file_extraction.rs: unzip_file", "src/base/write/mod.rs: close", "src/base/read/seek.rs: reader_without_entry"]}
{"id": "C83", "title": "Other software reads the archives", "statement": "A reader written from the ZIP specification alone, sharing nothing with the library (it takes the last end record, the ZIP64 records if a locator precedes it, checks that disk numbers are 0, that the counts agree, that directory, end records and comment fill the file to its last byte, and that each local header agrees with the directory in version, flags, method, time, date, name, and in checksum and sizes or in the data descriptor), accepts every archive the writer finishes that says what it means, and finds exactly the listed entries with their names, comments, methods, dates, checksums, sizes, attributes, and stored bytes that are the data or that the decoder turns into the data; and the archive's comment.", "quantifier": "all programs using the writer, sink schedules, lossless codecs, data", "why_tests_cant": "tests read archives back with the library's own reader, which would agree with a shared misreading of the format, and on a few programs", "anchors": ["src/base/write/entry_whole.rs: write", "src/base/write/entry_stream.rs: write_lfh, close", "src/base/write/mod.rs: close"]}
{"id": "C84", "title": "The library reads what other software reads", "statement": "Every file that a reader written from the ZIP specification alone accepts (that of C83), whoever wrote it, and whose entries use methods the library supports and complete Info-ZIP Unicode fields, opens with the library too, unless the source interrupts; the library shows the same entries in the same order with the same names, comments, methods, dates, checksums, sizes and attributes, and the same archive comment; and reading an entry with the check succeeds exactly if its stored bytes are, or decode to, data with the recorded checksum, and gives that data.", "quantifier": "all byte strings below 2^64 bytes, all codecs, all source schedules, all buffer sizes", "why_tests_cant": "tests use a handful of archives made by a few programs; this is about every archive there can be", "anchors": ["src/base/read/mod.rs: file, cd, cd_record", "src/base/read/io/locator.rs: eocdr", "src/base/read/seek.rs: reader_with_entry"]}
{"id": "C85", "title": "Software that reads from front to back reads what was written", "statement": "A reader that goes through an archive from its first byte, by the local headers, the data and the data descriptors as the ZIP specification defines them (APPNOTE 4.3.7 to 4.3.9), without seeing the directory first, reads an archive whose calls all succeeded or had no effect exactly if every entry records the true size of its data and no entry was streamed (except, with force_no_zip64, compressed streams as long as their data); it then gets every listed entry, in order, with name, method, date, checksum, sizes and data.", "quantifier": "all programs and sinks, all lossless codecs, all data", "why_tests_cant": "the crate's tests read its archives back with the crate's own reader, which makes the same mistakes; this compares with the specification, for every program", "anchors": ["src/base/write/entry_whole.rs: write", "src/base/write/entry_stream.rs: write_lfh, close", "src/spec/header.rs"]}
{"id": "C86", "title": "The streaming reader reads what other front-to-back readers read", "statement": "Every file that such a reader accepts, whoever wrote it, the library's streaming reader goes through as well, unless the source interrupts: the same entries in the same order with the same names, methods and dates (and checksum and sizes if they are in the local header), the same data however the client visits each entry, and the end where the directory begins. Provided there is an entry, the Info-ZIP Unicode fields are complete, and no entry has both a data descriptor and a ZIP64 field; where one has both, the next call fails.", "quantifier": "all byte strings below 2^64 bytes, all codecs, all lists of visits, all source schedules, all buffer sizes", "why_tests_cant": "the tests stream two archives; this is about every archive another program may have written to a pipe", "anchors": ["src/base/read/mod.rs: lfh", "src/base/read/stream.rs: next_with_entry, skip, done", "src/base/read/io/entry.rs", "src/base/read/stream.rs: consume_data_descriptor"]}
{"id": "C87", "title": "The length of an archive is known, and ZIP64 is used exactly where something asks for it", "statement": "An archive whose calls all succeeded is exactly as long as its parts: for each entry 30 bytes, name, extra fields, data and 16 bytes of descriptor if it was streamed; for each record of the directory 46 bytes, name, extra fields and comment; 22 bytes and the comment at the end; and for ZIP64, fields of 12, 20 or 28 bytes in the headers of the entries that ask for them and 76 bytes at the end exactly if the writer was told to, an entry was streamed or has a size above 4 GiB - 1, there are more than 65535 entries, or the directory begins above 4 GiB - 1. For entries stored whole, or compressed by the caller, the length is therefore known before the first byte is written.", "quantifier": "all programs whose calls succeed, all writer configurations, all codecs, all sinks and schedules", "why_tests_cant": "tests look at archives of a few bytes; the thresholds for ZIP64 are at 65536 entries and at 4 GiB, and the claim is an equation for all of them", "anchors": ["src/base/write/mod.rs: close", "src/base/write/entry_whole.rs: write", "src/base/write/entry_stream.rs: write_lfh, close", "src/base/write/compressed_writer.rs", "src/spec/extra_field.rs: count_bytes"]}
{"id": "C88", "title": "Software from before ZIP64 reads archives that do not need ZIP64", "statement": "A reader that takes every size, offset and number from its field of 16 or 32 bits and ignores ZIP64 altogether reads every archive of less than 4 GiB for which nothing asks for ZIP64 (C87): every listed entry, in order, with name, comment, method, date, checksum, sizes, attributes and stored bytes, and the comment of the archive. Not so for streams, which always ask for ZIP64 unless force_no_zip64 is set.", "quantifier": "all programs, all writer configurations, all codecs, all sinks and schedules, whatever failed on the way", "why_tests_cant": "the crate's tests read archives back with the crate's own reader, which understands ZIP64; this compares with the specification as it was before ZIP64", "anchors": ["src/base/write/mod.rs: close", "src/base/write/entry_whole.rs: write", "src/base/write/entry_stream.rs: write_lfh, close", "src/spec/header.rs"]}
{"id": "C89", "title": "What an archive depends on, and what not", "statement": "The compression level has no effect on entries that are stored, compressed by the caller or streamed; the checksum and sizes that an entry happens to carry have none on entries written whole; the data-descriptor flag carried over from a read entry has none at all. Two programs that differ in nothing else are told the same by every call and leave the same bytes in the sink, whatever the sink does. Documented, but not so: the deflate option has no effect if the method is not deflate.", "quantifier": "all pairs of programs that differ only in that, all writer configurations, all codecs, all sinks and schedules, whatever fails on the way", "why_tests_cant": "a statement about pairs of runs for all programs; no test compares two archives", "anchors": ["src/entry/builder.rs: deflate_option, size", "src/spec/compression.rs: DeflateOption::into_level", "src/base/write/entry_whole.rs: write, compress", "src/base/write/entry_stream.rs: write_lfh, close", "src/base/write/compressed_writer.rs: from_raw"]}
{"id": "C90", "title": "The entry builder", "statement": "Whatever calls are made on a ZipEntryBuilder, in whatever order and however often, on a new one or one made from an existing entry: the built entry has in every field what was set last and otherwise what it had before. The two halves of the external attribute count as fields of their own: unix_permissions sets the upper one only.", "quantifier": "all sequences of calls with all arguments, all entries to begin with", "why_tests_cant": "no test builds more than one chain of calls; the halves of the external attribute interact", "anchors": ["src/entry/builder.rs: all setters, From<ZipEntry>, build", "src/entry/mod.rs: unix_permissions"]}
{"id": "C91", "title": "The permissions of entries that are read", "statement": "An entry read from an archive reports as its Unix permissions the upper half of the external attributes of its directory record if the record names Unix as the host, and none otherwise.", "quantifier": "all files that open, all entries, all hosts; all streams", "why_tests_cant": "the crate's tests have no archive made on another system; a statement about all files", "anchors": ["src/entry/mod.rs: unix_permissions, attribute_compatibility", "src/base/read/mod.rs: cd_record, lfh (AttributeCompatibility::Unix)"]}
{"id": "C92", "title": "Archives that were not closed", "statement": "If closing an archive fails or is given up, or the program stops before closing, the sink holds a proper beginning of the archive that would have been written, and that beginning does not open: opening it fails with one of the two errors for files that are cut short.", "quantifier": "all programs of writer calls, all schedules of the sink while closing, all numbers of calls made before stopping and all bytes in between, all builds of the reader and chunkings of its source", "why_tests_cant": "no test interrupts the writer; the claim is about every point of interruption of every program", "anchors": ["src/base/write/mod.rs: close", "src/base/read/io/locator.rs: eocdr", "src/base/read/mod.rs: file"]}
{"id": "C93", "title": "Using the sink of an open writer", "statement": "No call on a writer notices what a program does to the sink through inner_mut: all calls and closing give the results that they give without it, and the sink then holds the same archive with what was written past the writer inserted at the place where the archive was by then. So flushing the sink in between changes nothing, whereas writing to it can make an archive that nobody opens although every call succeeded.", "quantifier": "all programs of writer calls with anything written to, flushed or closed on the sink between any of them, all codecs, sink schedules and writer states", "why_tests_cant": "no test uses inner_mut; the claim is about all interleavings", "anchors": ["src/base/write/mod.rs: inner_mut, close", "src/base/write/io/offset.rs: inner_mut, poll_write"]}
{"id": "C94", "title": "Builds without some of the compression methods", "statement": "For every selection of the crate's features for compression methods: a build opens exactly the files that the full build opens and whose entries all have methods of the build, with the same result; for the others it reports the method of the first entry that it lacks (so one such entry hides all others); a file that the full build refuses is refused. The streaming reader takes exactly the headers that the full build takes and whose method the build has.", "quantifier": "all 64 selections of features, all files and streams, all source behaviours and builds", "why_tests_cant": "the crate's tests are run with one selection of features; the claim compares two builds on every file", "anchors": ["Cargo.toml: features", "src/spec/compression.rs: Compression, TryFrom<u16>", "src/base/read/mod.rs: cd_record, lfh"]}
{"id": "C95", "title": "32-bit targets", "statement": "On a target whose usize is narrower than 64 bits, the same files open as on a 64-bit target that can allocate as many entries, with the same result and the source in the same state. What does not open fails with the same error, except that the one number of type usize in an error is cut to its lower bits, and that TargetZip64NotSupported is reported, before the directory is read, for exactly the files that are in order as far as the directory and declare more entries than a usize can count. Counts that fit a usize but not the memory still panic. The streaming reader differs in nothing but that number.", "quantifier": "all widths from 17 bits to 64, all files and streams, all source behaviours, builds with and without overflow checks", "why_tests_cant": "the tests run on one target; no test has a file declaring 2^32 entries", "anchors": ["src/base/read/mod.rs: cd", "src/spec/parse.rs: parse_extra_fields", "src/error.rs: TargetZip64NotSupported", "Cargo.toml: full-wasm"]}
{"id": "C96", "title": "Compressing ahead of time makes no difference", "statement": "Replacing calls of write_entry_whole by write_entry_whole_precompressed, with the data that base::write::compress returns and an entry that has the checksum of base::write::crc32 and the length of the data set, changes nothing: every call is told the same and the sink gets the same bytes. Every call that does not ask for Deflate64 has such a counterpart. The same holds for streams of an entry that has checksum and size set beforehand: the data in one piece, or what compress makes of it at the default level.", "quantifier": "all programs, any of their calls replaced, all entries, data, codecs, sink behaviours and writer configurations", "why_tests_cant": "all programs and sink behaviours, entries beyond 4 GiB, archives with many entries", "anchors": ["src/base/write/mod.rs: write_entry_whole_precompressed, write_entry_stream_precompressed", "src/base/write/entry_whole.rs: compress, crc32, write", "src/base/write/entry_stream.rs"]}
{"id": "C97", "title": "What the local header of a streamed entry says", "statement": "As documented, the local header of a streamed entry has no compressed size, no uncompressed size and a null CRC.", "quantifier": "all programs with a streamed entry, all entries, sinks and configurations, entries abandoned or closed", "why_tests_cant": "all values an entry can carry", "anchors": ["src/base/write/mod.rs: write_entry_stream, write_entry_stream_precompressed", "src/base/write/entry_stream.rs: write_lfh"]}
{"id": "C98", "title": "What the compression example packs", "statement": "The example program that packs a file or directory (examples/cli_compress.rs), on Unix: given a directory, its walk comes to an end if what is below has one, and finds every file below once and nothing else. If the program comes to its end, whatever the operating system did meanwhile, the archive is what a fresh writer makes of exactly these files, each under its UTF-8 path relative to the directory with its content, compressed with Deflate. On a disk that does not fail it comes to its end if and only if the names are UTF-8 and the writer takes every file. A single file is packed under its own name.", "quantifier": "all disks and orders of listing, all directories and files on them, all failures of the operating system at any request, all codecs and behaviours of the output file", "why_tests_cant": "directory trees of any depth and size, in any order of listing, and every point at which the system may fail", "anchors": ["examples/cli_compress.rs: run, handle_singular, handle_directory, write_entry, walk_dir"]}
{"id": "C99", "title": "Packing a directory with one example and unpacking it with the other", "statement": "A directory packed by the compression example and extracted by the extraction example to a directory with nothing in it: the extraction comes to its end and changes nothing else; a path below the output directory is a file with some content if and only if it is one, with that content, below the directory that was packed; and the directories are those of the packed directory. A single file packed alone is restored under its name in any directory where nothing has that name, and nothing else on the disk changes.", "quantifier": "all directory trees with names the sanitizer leaves alone, all lossless codecs, all behaviours of the output file, all output directories and disks", "why_tests_cant": "it joins two programs, the writer and the reader over all directory trees", "anchors": ["examples/cli_compress.rs", "examples/file_extraction.rs", "src/base/write/mod.rs: close", "src/base/read/seek.rs: reader_without_entry"]}
{"id": "C100", "title": "Sizes of entries that bring a ZIP64 field along", "statement": "An entry that has a ZIP64 field among its extra fields - as every entry has that was read from an archive in which it needed one - is recorded, when written to an archive, with the sizes it is written with and the place where it is, not with those in the field: the directory record, read as the format prescribes, gives them. This goes for streamed entries and for entries written in one go, of any size.", "quantifier": "all codecs, programs, behaviours of the output (including failing, cancelled and abandoned calls), entries with ZIP64 fields that have both sizes, and data of any length", "why_tests_cant": "it is about entries of more than 4 GiB and about every combination of old and new sizes", "anchors": ["src/base/write/entry_whole.rs: EntryWholeWriter::enforce_zip64_sizes", "src/base/write/entry_whole.rs: EntryWholeWriter::write", "src/base/write/entry_stream.rs: EntryStreamWriter::close", "src/base/read/mod.rs: get_zip64_extra_field"]}
{"id": "C101", "title": "Entries copied from one archive into another are read back", "statement": "Entries that were read from archives, each with its ZIP64 field as the library shows it, and new entries besides, can be written to an archive in one go, precompressed or streamed: software that goes by the format finds every one of them with its name, comment, method, date, checksum, sizes, attributes and bytes, the library opens the archive, shows the same, and reading with the check gives the data of the call.", "quantifier": "all lossless codecs, programs (including failing, cancelled and abandoned calls), schedules of the writing and of the reading side, entries with extra fields of any kind that say what they should, builds, chunk sizes", "why_tests_cant": "copies are made of entries of every origin, in every order and mixed with calls that fail; whether the old field or the new sizes win shows only in certain combinations", "anchors": ["src/base/write/entry_whole.rs: EntryWholeWriter::write", "src/base/write/entry_stream.rs: EntryStreamWriter::close", "src/base/read/mod.rs: detect_filename", "src/base/read/mod.rs: get_combined_sizes"]}
{"id": "C102", "title": "Copies of copies", "statement": "Copying an archive entry by entry (open, read every entry with the check, write it in one go, set the comment, close) can be repeated any number of times, each time from the last copy: the last copy shows the same archive comment and the same entries in the same order, with names, comments, methods, dates, attributes, checksums and extra fields, and its entries have the data that the first copier read from the original.", "quantifier": "all archives of any origin that open, all numbers of copies, all lossless codecs, builds, writer configurations, chunk sizes and behaviours of sources and sinks, different ones each time", "why_tests_cant": "a loss that shows only in the third or fourth generation, or only if a particular copier had a slow source, is not found by copying once; the number of generations is unbounded", "anchors": ["src/base/read/mod.rs: file", "src/base/write/entry_whole.rs: EntryWholeWriter::write", "src/base/write/mod.rs: close", "src/base/read/io/entry.rs: read_to_end_checked"]}
{"id": "C103", "title": "Archives made of what was read elsewhere", "statement": "A client that reads an archive from a stream, skipping some entries and reading others, and writes what it has read to a new archive, each entry in one go as the streaming reader showed it, has an archive that opens and shows exactly these entries in order, with the names, methods and dates it saw, the checksums and sizes of the data it saw, and that data when read with the check; also for entries with data descriptors, whose checksums and sizes the streaming reader does not know. More generally, an archive put together by any program from entries that were read from any number of archives and streams, and from new ones, has all of them.", "quantifier": "all streams of any origin, plans of skips, reads, partial and checked reads, lossless codecs, builds, writer configurations, chunk sizes, behaviours of source and sink", "why_tests_cant": "streams come from other software with any combination of flags, descriptors and extra fields; which of them survive being written again cannot be enumerated", "anchors": ["src/base/read/stream.rs: next_with_entry", "src/base/read/mod.rs: lfh", "src/base/write/entry_whole.rs: EntryWholeWriter::write"]}
{"id": "C104", "title": "Packing an upload", "statement": "The upload example turns a multipart request into an archive: if it reports success, the file has exactly one entry for each part, in order, named by the cleaned-up file name or a generated one, whose data is the concatenation of the pieces the part arrived in, however these were cut; reading the archive, or extracting it with the extraction example, gives them back. If the request breaks off or a write fails, what is in the file is the entries of the parts that came through and at most one unfinished one, without a directory. It succeeds whenever the request comes through, the names fit and the file takes what it is given.", "quantifier": "all requests (number of parts, names, pieces, places where they break off), sanitizers, generated names, codecs, behaviours of the file at every request", "why_tests_cant": "how a request is cut into pieces and where it breaks off is up to network and client; the interleaving with short writes of the file cannot be enumerated", "anchors": ["examples/actix_multipart.rs: create_archive", "src/base/write/entry_stream.rs: EntryStreamWriter", "src/base/write/mod.rs: ZipFileWriter::close"]}
{"id": "C105", "title": "What an entry's metadata decide when it is read", "statement": "Of all the index says about an entry, only its place, its compressed size and its method decide which bytes a reader gives for it, which errors the calls report and where the source is left; with the check, also the checksum. The name, flags, dates, attributes and the uncompressed size have no influence. The uncompressed size shown for an entry is the length of the data read for it.", "quantifier": "all sources, codecs and behaviours of the source, all pairs of indexes that agree in place, compressed size and method, all sequences of calls on one seekable reader and all interleavings of users of an in-memory or file reader; for the size: all archives written here", "why_tests_cant": "independence of all other fields is a statement about pairs of executions for every value of the fields and every sequence of calls", "anchors": ["src/base/read/seek.rs: ZipFileReader::reader_with_entry", "src/base/read/mod.rs: StoredZipEntry::seek_to_data_offset", "src/base/read/io/entry.rs: ZipEntryReader"]}
{"id": "C106", "title": "A path reader whose file is replaced", "statement": "A path reader opens the file at its path anew for every entry. If another file is put there while the reader is in use, what a user gets from an entry that is already open stays that of the file it was opened in; an entry that is opened afterwards is looked for in the new file, at the place, with the method and size that the listing of the old one says. Users do not notice each other, nor a file that agrees with the old one in the local header's signature and lengths and the data of the entries opened. Otherwise, the replacement is noticed: an error is reported or the checksum differs from the listed one unless the data has the same checksum.", "quantifier": "all listings, codecs, sequences of calls by any number of users, contents of the path at every call, source behaviours", "why_tests_cant": "the moment of the replacement relative to every user's calls, and the contents, cannot be enumerated", "anchors": ["src/tokio/read/fs.rs: ZipFileReader::reader_with_entry", "src/tokio/read/fs.rs: ZipFileReader::reader_without_entry"]}
{"id": "C107", "title": "Exchanging entry readers", "statement": "A client may put another entry reader in the place of the one inside a streaming reader (std::mem::swap through reader_mut). Whatever is exchanged, leaving the entry does not panic, and the streaming reader goes on in the source of the entry reader it then holds: exchanging the entry readers of two streaming readers is as good as exchanging the streaming readers.", "quantifier": "all codecs, any number of streaming readers and entry readers over any sources, all sequences of calls and exchanges", "why_tests_cant": "sequences of calls and exchanges over any number of readers cannot be enumerated; the types allow exchanging readers that own their source and readers that borrow it", "anchors": ["src/base/read/io/owned.rs: OwnedReader::owned_into_inner", "src/base/read/io/entry.rs: ZipEntryReader::into_inner", "src/base/read/stream.rs: ZipFileReader::reader_mut", "src/base/read/stream.rs: ZipFileReader::done", "src/base/read/stream.rs: ZipFileReader::skip"]}
{"id": "C108", "title": "Using the source of a seekable reader", "statement": "A client that uses the source of a seekable reader through inner_mut between entries (seeks, reads, or changes it) does not change what is read from the entries opened afterwards, as long as the source still has the same signature, lengths and data where those entries are. If another source is put in its place, entries are read from that one, at the place and with the method and size of the listing, as by a reader new to it.", "quantifier": "all listings, codecs, sources, sequences of calls and uses that the borrow checker allows, all functions as uses", "why_tests_cant": "uses are arbitrary functions on the source, in any number and between any calls", "anchors": ["src/base/read/seek.rs: ZipFileReader::inner_mut", "src/base/read/seek.rs: ZipFileReader::reader_with_entry", "src/entry/mod.rs: StoredZipEntry::seek_to_data_offset"]}
{"id": "C109", "title": "Forcing ZIP64 on or off between the calls", "statement": "force_zip64 may be called at any time and any number of times: until the archive is closed nothing reported or written changes, the closed archive is the one of a writer for which it was called once at first, and that archive is the one without it, or that with the ZIP64 end record and locator put before its end record. force_no_zip64 called between calls means that from there on no ZIP64 structure is written and that what would need one is refused. An archive for which ZIP64 was forced opens with the same entries as without.", "quantifier": "all sequences of calls with the two at any places, all states of the writer, all codecs, entries, data and behaviours of the sink", "why_tests_cant": "places of the calls among arbitrary programs and arbitrary sinks; needs a comparison of whole runs", "anchors": ["src/base/write/mod.rs: ZipFileWriter::force_zip64", "src/base/write/mod.rs: ZipFileWriter::force_no_zip64", "src/base/write/mod.rs: ZipFileWriter::close"]}
{"id": "C110", "title": "Setting the comment of an archive at any time", "statement": "ZipFileWriter::comment may be called at any time and any number of times between entries: until the archive is closed nothing else that is reported or written changes, only the comment set last counts, and the closed archive differs from one with another comment or none in nothing but the comment and the field of the end record that holds its length. Both archives open with the same entries; the listings differ in the comment alone.", "quantifier": "all programs of the writer, all states of the writer, comments, codecs, entries, data and behaviours of the sink", "why_tests_cant": "places of the calls among arbitrary programs and arbitrary sinks; compares whole runs", "anchors": ["src/base/write/mod.rs: ZipFileWriter::comment", "src/base/write/mod.rs: ZipFileWriter::close", "src/base/read/mod.rs: file"]}
{"id": "C111", "title": "Readers made of a listing and a source", "statement": "Every ZipFile that safe code can come by, by opening an archive or through ZipFileBuilder, has the entries of an archive that was opened or none at all, and strings that are what they say. A reader made by from_raw_parts of such a listing behaves exactly like the one the entries came from, over the same source, whatever comments the builder was given; with an empty listing it refuses every index and does not touch the source. A listing that was kept is good for any source that agrees with the archive up to the end of the entries that are opened, with or without a directory. For an archive the library wrote, the listing and the bytes in front of the directory are enough to read every entry back.", "quantifier": "all listings reachable through opening and building in any order, all comments, all sessions of a seekable, in-memory or path reader, all sources and behaviours of them", "why_tests_cant": "arbitrary chains of builders and readers, and arbitrary sessions compared as a whole", "anchors": ["src/file/builder.rs: ZipFileBuilder", "src/base/read/seek.rs: from_raw_parts", "src/base/read/mem.rs: from_raw_parts", "src/tokio/read/fs.rs: from_raw_parts"]}
