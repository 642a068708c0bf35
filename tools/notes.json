{
 "C01": "Both directions, for all field values of all five records.",
 "C02": "Offset/width tables transcribed from APPNOTE; tables tile the records.",
 "C03": "All flag values and all 16-bit words.",
 "C04": "Missing: a zero-length last field is dropped by the parser (counterexample proved).",
 "C05": "Missing: ZIP64 fields with a disk number are declared 4 bytes too long (counterexample proved).",
 "C06": "Missing: in builds with overflow checks an overlong field panics instead of being reported (counterexample proved).",
 "C07": "Total characterisation for every field content.",
 "C08": "Both tables.",
 "C09": "All components and all stored words.",
 "C10": "Missing: setting a component twice ORs the values (counterexample proved).",
 "C13": "All modes and attributes.",
 "C14": "Missing: directories with non-UTF-8 names get version 10 (counterexample proved).",
 "C11": "All byte strings and readers; validator characterised independently.",
 "C15": "All data and schedules; plus progress for every source that keeps answering.",
 "C16": "All data and schedules; seeks counted (one to the end, one per fill).",
 "C17": "All data, builds and schedules; plus progress.",
 "C18": "Missing: opening does panic for three kinds of input (counterexamples proved); all panics characterised.",
 "C19": "All data and schedules for which opening succeeds; records described by offset, independently of the parser.",
 "C20": "All records; and tied to byte offsets of the archive.",
 "C21": "Missing: the last record may be cut short without an error (counterexample proved).",
 "C22": "All codecs, uses (any sequence of reads, failures, checksum queries, schedule changes) and sources.",
 "C23": "All uses of one entry reader.",
 "C24": "All data; the burst theorem covers any change within four consecutive bytes. 'Everything the reader delivered' holds only if compute_hash, which restarts the checksum, was not called before: C24_everything_partial, C24_after_hash_fails; C24_again for a second check.",
 "C25": "All histories of calls, any codec, any schedule of the source.",
 "C26": "All interleavings of calls by any number of users; each user's call has its own schedule.",
 "C27": "All indices, archives and source states; 'without touching the source' is the ghost log being unchanged.",
 "C29": "Missing: with bytes left between the end of the compressed stream and the declared size the source is not left at the next header (counterexample proved); exact for stored entries and for streams that use all declared bytes.",
 "C30": "All sources and schedules.",
 "C31": "All sources and schedules; C31_unsupported assumes the extra fields parse, as the code parses them first.",
 "C32": "Any writer configuration, any program (list of calls with any sink behaviour, including cancellation, errors, short writes), also during and after closing.",
 "C33": "Bytes are only appended, the sink is never closed, and flushed exactly as often as the program flushed an entry stream itself; closing an entry or the archive flushes nothing.",
 "C34": "Whole entries from any state; whole programs, where stored (or precompressed) streamed data may also be split differently; for compressed streams the splits must agree because the codec is abstract.",
 "C35": "Partial: holds for every validation error except the second extra-field check, which runs after the bytes have been written when the archive is beyond 4 GiB (entry_whole.rs:217-227); C35_no_trace_fails exhibits a reachable state. C35_rejects shows over-long names, comments and extra fields are always rejected.",
 "C38": "For all histories: local records and central records carry no ZIP64 field (unless the caller supplied one in the entry's own extra fields), no ZIP64 end record is written, and sizes, offsets, counts and directory offsets beyond the limits are reported as Zip64Needed. The directory size is not checked by the code; see C40.",
 "C47": "Missing from the full statement: using the writer of a compressed entry after AsyncWrite::close reaches async_compression, which in some versions panics (C47_closed_fails); C47_calls_partial shows this and Deflate64 are the only ways. Closing the archive never panics. C47_deflate64_panics shows the stated exception is real; C47_compress_panics records that the public free function compress also panics for Stored.",
 "C36": "Any program, including failed, cancelled and abandoned entries. Missing: caller-supplied ZIP64 fields and the collision of a size of exactly 0xFFFFFFFF with an offset-only ZIP64 field. C36_clash_misread says what the records of such entries say, C36_clash_fails that they occur.",
 "C39": "All sizes, offsets and counts, read off the directory's bytes per APPNOTE. Missing: same exclusions as C36 (C36_clash_fails); with force_no_zip64 the sizes of streamed entries are exchanged (C46_exchanged_fails); a directory size over 4 GiB alone does not make the archive ZIP64 (C40_size_fails).",
 "C40": "Any program. Missing: without ZIP64 the classic fields are clamped, and a directory over 4 GiB that starts below 4 GiB closes without ZIP64 and with a wrong size (counterexample proved).",
 "C41": "Any program ending in a successful close whose bytes are legible (the last end signature is the real one and no locator is faked). Missing: archives that are not legible (C41_locator_fails and C41_locator_panics_fails show two), caller-supplied ZIP64 fields, exchanged sizes with force_no_zip64.",
 "C42": "Any program, codec, reader schedule. Missing: same exclusions as C41.",
 "C12": "Every entry of every legible archive: bytes, text and native alternatives survive, also beside Info-ZIP unicode fields of the caller that agree with the name. Missing: caller-supplied Info-ZIP unicode fields that disagree (C12_blocked_fails) and an empty UTF-8 text with a native alternative (C12_empty_text_fails).",
 "C43": "Any program with failures, cancellations and abandoned streams anywhere; every listed entry keeps its metadata and data. Missing: the refused-but-listed case is proved as a violation (C43_refused_fails); archives must be legible (see C41).",
 "C45": "Any program and reader. Missing: comments over 65535 bytes (C45_long_fails) and archives in which something after the start of the end record looks like another (C45_embedded_fails); C45_small_partial gives conditions on the calls that exclude the latter.",
 "C37": "Any program, split and sink behaviour; checksum and sizes read off the directory record and the descriptor. Missing: with force_no_zip64 a compressed streamed entry has its sizes exchanged (C37_exchanged_fails, C42_exchanged_fails); ZIP64 descriptors carry placeholder sizes (C37_descriptor_fails).",
 "C44": "Any two programs and contexts. Missing: compressed sizes can differ (C44_compressed_size_fails); force_no_zip64 with compressed streams; archives must be legible (see C41).",
 "C46": "Any program. Missing: streamed precompressed entries under force_no_zip64 (C46_exchanged_fails: the sizes are always exchanged), the offset/size collision, caller-supplied ZIP64 fields.",
 "C28": "C28_visits_partial: any archive of at least one entry, any writer configuration, any plan of skips and reads, any source schedule, for programs whose calls all succeeded, whose data is known (for precompressed data: the bytes decode to it and the caller gave its checksum), whose extra fields are well-formed and not the writer's own, and which stream nothing uncompressed. C28_completes: finite progress. C28_stored_stream_fails: an entry streamed without compression is written but refused by the streaming reader. C28_empty: without entries an unexpected header is reported instead of the end.",
 "C48": "C48_readable_fields: what the reader returns for any accepted archive can be written back in full. C48_copy_partial: an entry read from any archive whatsoever and written into any new archive reads back with the same name, comment, dates, attributes, extra fields and data. Missing: entries with a ZIP64 field (C48_twice_fails: the second copy of a streamed entry is corrupt) and with unicode fields that disagree with the name (C48_renamed_fails).",
 "C49": "Partial: years outside 1980-2107 are stored modulo 128 without any error (C49_years_fails); within that range the conversion keeps all but the odd second, and as_chrono is characterised on every stored word. chrono itself (calendar arithmetic of with_ymd_and_hms) is modelled, not verified.",
 "C50": "Partial: seekable, in-memory and file readers, checked reads, skip and done never panic; the streaming reader's next_with_entry panics in builds with overflow checks on an overlong extra field (C50_streaming_fails), and C50_streaming_partial says that this is the only way.",
 "C51": "Two-run (non-interference) statement for the seekable reader and for any interleaving of users of a shared reader. Of the local header only the signature and the two lengths matter.",
 "C52": "Limits: name and comment up to 65535 bytes, extra fields with 54 bytes and the Unicode texts to spare. C52_completes shows that completion is reached, so the statement is not vacuous.",
 "C53": "Any program whose caller puts no ZIP64 field on an entry; unknown fields need not be truthful. Missing: ZIP64 fields of the caller with a disk number (C53_disk_fails: the record's own lengths then place its data four bytes too far on); a directory record's offset is in doubt in the cases of C36.",
 "C54": "A last field without content is lost (C54_empty_fails). Legible and Clash as in C41.",
 "C55": "The crate documents that the two extra fields may differ; the theorem says by how much. C55_streamed_fails shows that the naive reading is wrong for streamed entries. Legible and Clash as in C41.",
 "C56": "Any program. Missing: directories whose name is not UTF-8 (C14_raw_directory_fails) and entries with a ZIP64 field, for which C56_zip64_fails shows a version needed of 2.0.",
 "C57": "The results and the appended bytes are the same. Reading the whole file does not work (C57_whole_file_fails), and if what was there is an archive laid out alike, its entries are shown instead (C57_mistaken_fails).",
 "C59": "C59_cut_partial: for files with a single end record signature, every cut before the end of the fixed part of the end record is refused with one of two errors. C59_comment_fails: a cut inside the archive comment opens with the shorter comment; C59_comment: that is so for every file and every such cut, with nothing else changed. C59_nested_fails: a cut behind a stored archive opens as that archive.",
 "C60": "All schedules of the sink, including closes it interrupts. C60_same compares two complete runs; C60_refused and C60_stored hold whatever the sink does.",
 "C61": "Holds for the streaming reader. The seekable and shared readers do not look at the bit (C61_seekable_fails).",
 "C62": "For programs as in C28 and archives as in C42. Archives of other origin can look different to the two readers (C62_twofaced_fails).",
 "C63": "Listing and streaming reader: proved, for all files. Data read through the directory may be shared by entries (C63_shared_fails).",
 "C64": "Any sequence of calls on one entry reader, failed and dropped read_to_end calls included. A vector given to read_to_end keeps what was read before a failure, as AsyncReadExt documents; that crate itself is not modelled.",
 "C66": "Streaming is partial: the requests that decompressors make of the source are not part of the model (their schedule is), so they are not counted.",
 "C67": "Missing: entries with a ZIP64 field or with Info-ZIP unicode fields that contradict the name or comment, for which copying changes the entry (C48_twice_fails, C48_renamed_fails); archive comments that are not UTF-8, which the writer cannot be given.",
 "C68": "C68_checked_partial: for archives as in C28 (calls that all succeeded, extra fields that are not the writer's own, nothing streamed without compression), any plan of skips, reads, partial reads and checked reads, any schedule; the checked entries were written whole, or carried the right checksum already. C68_descriptor_fails: the check of any other streamed entry, in any such archive, ends in a checksum error.",
 "C69": "C69_before, C69_noticed and C69_all_or_nothing are the claim for what precedes the cut and for clients that read until they are told there are no more entries (the latter for all archives of all programs, under the hypotheses of C28). Missing: the entry in which the cut is may be handed out short and without an error when the client stops after it (C69_short_fails); C69_last_partial shows that nothing else can happen.",
 "C70": "C70_contained_partial: any change before the directory, entry by entry (intact record: data as before; any record: nothing with a wrong checksum is returned; stored entry and a burst of at most four bytes in its data: checksum error). C70_others_partial: a change within one record leaves all other entries alone. Missing: the archives excluded in C42 (not legible, exchanged sizes, offset/size collision).",
 "C71": "C71_ahead, C71_behind and C71_up_to hold of all files. C71_directory_partial, for written archives, has the conditions of C28 (no refused or abandoned calls, no stored streams).",
 "C72": "Proved for stored entries. The claim does not extend to compressed ones, as C72_compressed_fails shows.",
 "C73": "The claim is proved as stated. C73_counting records that the counting writer under the entry writer has a vectored write that does not count; it is unreachable.",
 "C74": "Both directions, for every byte string and schedule. As in C19 it is assumed that the locator's offset plus four does not overflow; C18 says what happens otherwise. `most` is the largest number of entries a vector can be allocated for.",
 "C75": "Both directions, for every byte string and schedule.",
 "C76": "`crc32fast` is not in the repository; what is shown is that the algorithm standing for it in the model is CRC-32 as the standards define it.",
 "C77": "Both directions, for every byte string shorter than 2^64 and every schedule, with one exception: without overflow checks the locator's offset plus four is assumed not to wrap (C18 says what happens then). C77_open_outcome includes C74_opens_iff, with a weaker assumption.",
 "C78": "One table of refusals per call (Spec/Verdict.lean), in the order they apply; the result of the call is that of the first row that holds. Interrupted calls (sink error, dropped future) are excluded by Completed, except for the early rows, which hold under every schedule.",
 "C80": "proved in full; C80_checksum_fails records that the content is whatever was read, checksum or not",
 "C83": "The independent reader is an executable function written from the specification and not from the code. Partial where the writer leaves the specification: exchanged sizes of compressed streams with force_no_zip64 (shown rejected), a size of exactly 0xFFFFFFFF beyond 4 GiB, a directory longer than 4 GiB without ZIP64, and archives in which a signature inside the comment misleads every reader (Legible).",
 "C84": "Complete for what it says. The converse does not hold and is not claimed: the library opens archives whose local headers contradict the directory (C84_disagreement_unnoticed, with a witness).",
 "C85": "Exact for archives in which every call succeeded or wrote nothing, with the caller's own extra fields and data known (DataIn). Partial because the claim fails for streams: C85_streamed_fails (every program without force_no_zip64 that streams) and C85_exchanged_fails (with it).",
 "C86": "Partial because the library fails on a data descriptor behind a ZIP64 local header (C86_zip64_descriptor_fails, every such archive), on archives without entries (C86_empty_fails) and, as in C84, on incomplete Info-ZIP Unicode fields.",
 "C87": "proved for programs all of whose calls succeeded (a failed or abandoned call leaves bytes whose number depends on where it failed) and whose user-supplied extra fields contain no ZIP64 field.",
 "C88": "partial: streams ask for ZIP64 even where it is not needed (C88_stream_fails); compressed streams with force_no_zip64 have their sizes exchanged; the comment must not contain the signature of an end record.",
 "C89": "C89_option_partial: the option has no effect unless an entry is compressed in one piece; the documented claim (no effect unless the method is deflate) is false, C89_other_method_fails.",
 "C91": "C91_reported_partial: what is reported is the upper half of the external attributes, for every opened archive. Not so: None for other hosts (C91_host_fails), and permissions of entries read from a stream (C91_stream_fails: always 000).",
 "C92": "C92_beginning (full): a failed close leaves a proper beginning of the archive. C92_unclosed_partial, C92_underway_partial: it does not open, provided the archive has one end record signature and close failed before the comment. C92_comment_fails: a failure within the comment is not noticed.",
 "C95": "`top` is the number of values of usize. hb: no target can allocate that many entries. hfit leaves out files whose ZIP64 locator points to the last four bytes a u64 can count, as in C77. C95_wide shows that for 64 bits the parametrised functions are those used everywhere else.",
 "C96": "C96_whole is for programs with any number of calls replaced, with results, closing and bytes equal under the same sink; C96_counterpart shows that every supported call has its counterpart; C96_stream compares streams under different sinks.",
 "C97": "C97_header says exactly what the local header has, for every streamed entry. The statement as documented holds for entries that carry no checksum and sizes (C97_null_partial) and fails for others (C97_null_fails).",
 "C98": "Full for every directory but the root directory, for which it is false (C98_root_fails, C98_root_panics_fails). The module is behind a cfg that is never true; its text is what is modelled.",
 "C99": "Files are restored exactly, and single files with the whole disk otherwise unchanged (C99_single). Empty directories are lost (C99_empty_directories_fails), so the clause about directories holds only for those on the way to a file.",
 "C100": "Holds for streamed entries and for entries that fit the 32-bit fields (C100_records_partial). A large entry written in one go is recorded with the sizes in the first ZIP64 field it brought along (C100_stale, for all programs), and a small one beyond 4 GiB is said to be where the uncompressed size in that field points (C100_lost). C100_large_fails and C100_far_fails are archives, made by this crate from entries it read, where these are wrong.",
 "C101": "Partial: entries of 4 GiB or more written in one go together with a ZIP64 field, and small ones beyond 4 GiB, are recorded wrongly by the code (C100_large_fails, C100_far_fails); what is asked of the end records, Clash and streams with force_no_zip64 as in C83.",
 "C102": "Partial: entries with ZIP64 fields (C48_twice_fails: already the second copy can be wrong), with unicode fields that contradict them, and archives beyond 4 GiB, as for C67; fields without content at the end of the list of an entry are lost (C54_empty_fails).",
 "C103": "Partial: C103_collected_partial for entries without ZIP64 field and without unicode fields that contradict them; C103_descriptors_partial for ZIP64 fields as this crate writes them (names as bytes). Below 4 GiB; the end records as in C41.",
 "C104": "The program is shown to be a sequence of streaming calls on a fresh writer for every behaviour of the file. Reading needs what C41 and C42 need: no second end record in the last 22 bytes, no size that equals the ZIP64 mark beyond 4 GiB; a locator cannot be mistaken, because these archives end in ZIP64 form. The example is text that is never compiled (finding 33).",
 "C105": "C105_size_partial holds for entries the writer compressed or stored itself; C105_size_fails shows the full statement is false for precompressed data, whose declared uncompressed size nobody checks.",
 "C106": "The full statement fails for clients that do not compare the checksum (C106_replaced_fails); everything else holds for all contents of the path at every call. Writing into an open file is not modelled.",
 "C107": "The full statement fails: done/skip panic with a borrowing entry reader (C107_borrowed_fails), and the data descriptor flag is not exchanged (C107_descriptor_fails). Proved: exactly when leaving panics, that nothing panics if none borrows or nothing is exchanged, and that exchanges between streams whose entries agree in the flag exchange the streams.",
 "C109": "What force_zip64 does to what is written is shown without conditions; that the archives open alike is shown under what C41 assumes of both (C109_opened_partial). The part about force_no_zip64 fails when a stream or force_zip64 came before it (C109_late_fails); proved when nothing has asked for ZIP64 by then (C109_late_partial).",
 "C110": "What is written is shown of all programs and in every state of the writer; the length is recorded on 16 bits, so a longer comment is not read back (C45_long_fails). That the archives open alike is shown under what C41 assumes of both (legible archives).",
 "C111": "Strings given to the builder are any that keep the promise C11 shows of all strings that safe code can make. The part about archives that were written is shown under what C42 assumes of them (legible archives; under force_no_zip64 no streams of compressed or precompressed data; beyond 4 GiB no size of exactly 0xFFFFFFFF)."
}