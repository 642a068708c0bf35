{
 "claims": [
  {
   "property": "C01",
   "status": "proved",
   "theorems": [
    "AsyncZip.C01_local_file_header",
    "AsyncZip.C01_central_directory_record",
    "AsyncZip.C01_end_of_central_directory",
    "AsyncZip.C01_zip64_end_record",
    "AsyncZip.C01_zip64_locator",
    "AsyncZip.C01_local_file_header_converse",
    "AsyncZip.C01_central_directory_record_converse",
    "AsyncZip.C01_end_of_central_directory_converse",
    "AsyncZip.C01_zip64_end_record_converse",
    "AsyncZip.C01_zip64_locator_converse"
   ],
   "note": "Both directions, for all field values of all five records."
  },
  {
   "property": "C02",
   "status": "proved",
   "theorems": [
    "AsyncZip.C02_local_file_header",
    "AsyncZip.C02_central_directory_record",
    "AsyncZip.C02_end_of_central_directory",
    "AsyncZip.C02_zip64_end_record",
    "AsyncZip.C02_zip64_locator"
   ],
   "note": "Offset/width tables transcribed from APPNOTE; tables tile the records."
  },
  {
   "property": "C03",
   "status": "proved",
   "theorems": [
    "AsyncZip.C03_flags_encode",
    "AsyncZip.C03_flags_decode"
   ],
   "note": "All flag values and all 16-bit words."
  },
  {
   "property": "C04",
   "status": "partial",
   "theorems": [
    "AsyncZip.C04_extra_fields_roundtrip_partial",
    "AsyncZip.C04_extra_fields_roundtrip_nonempty_last",
    "AsyncZip.C04_extra_fields_serialise",
    "AsyncZip.C04_extra_fields_roundtrip_fails"
   ],
   "note": "Missing: a zero-length last field is dropped by the parser (counterexample proved)."
  },
  {
   "property": "C05",
   "status": "partial",
   "theorems": [
    "AsyncZip.C05_declared_length_partial",
    "AsyncZip.C05_field_size_partial",
    "AsyncZip.C05_declared_length_fails"
   ],
   "note": "Missing: ZIP64 fields with a disk number are declared 4 bytes too long (counterexample proved)."
  },
  {
   "property": "C06",
   "status": "partial",
   "theorems": [
    "AsyncZip.C06_parse_exact_partial",
    "AsyncZip.C06_parse_no_panic_release",
    "AsyncZip.C06_overlong_rejected",
    "AsyncZip.C06_parse_no_panic_fails"
   ],
   "note": "Missing: in builds with overflow checks an overlong field panics instead of being reported (counterexample proved)."
  },
  {
   "property": "C07",
   "status": "proved",
   "theorems": [
    "AsyncZip.C07_zip64_values",
    "AsyncZip.C07_no_zip64_field"
   ],
   "note": "Total characterisation for every field content."
  },
  {
   "property": "C08",
   "status": "proved",
   "theorems": [
    "AsyncZip.C08_compression_ids",
    "AsyncZip.C08_attribute_ids"
   ],
   "note": "Both tables."
  },
  {
   "property": "C09",
   "status": "proved",
   "theorems": [
    "AsyncZip.C09_build_then_read",
    "AsyncZip.C09_component_ranges",
    "AsyncZip.C09_read_then_build"
   ],
   "note": "All components and all stored words."
  },
  {
   "property": "C10",
   "status": "partial",
   "theorems": [
    "AsyncZip.C10_setter_independent",
    "AsyncZip.C10_setter_panics_iff",
    "AsyncZip.C10_setters_commute",
    "AsyncZip.C10_each_component_once_partial",
    "AsyncZip.C10_last_setting_wins_fails"
   ],
   "note": "Missing: setting a component twice ORs the values (counterexample proved)."
  },
  {
   "property": "C11",
   "status": "proved",
   "theorems": [
    "AsyncZip.C11_validator_exact",
    "AsyncZip.C11_constructors",
    "AsyncZip.C11_opened_archive",
    "AsyncZip.C11_streamed_entry"
   ],
   "note": "All byte strings and readers; validator characterised independently."
  },
  {
   "property": "C12",
   "status": "partial",
   "theorems": [
    "AsyncZip.C12_strings_partial",
    "AsyncZip.C12_empty_text_fails",
    "AsyncZip.C12_blocked_fails"
   ],
   "note": "Every entry of every legible archive: bytes, text and native alternatives survive, also beside Info-ZIP unicode fields of the caller that agree with the name. Missing: caller-supplied Info-ZIP unicode fields that disagree (C12_blocked_fails) and an empty UTF-8 text with a native alternative (C12_empty_text_fails)."
  },
  {
   "property": "C13",
   "status": "proved",
   "theorems": [
    "AsyncZip.C13_unix_permissions",
    "AsyncZip.C13_permissions_of_attribute"
   ],
   "note": "All modes and attributes."
  },
  {
   "property": "C14",
   "status": "partial",
   "theorems": [
    "AsyncZip.C14_version_needed_partial",
    "AsyncZip.C14_raw_directory_fails",
    "AsyncZip.C14_headers_agree"
   ],
   "note": "Missing: directories with non-UTF-8 names get version 10 (counterexample proved)."
  },
  {
   "property": "C15",
   "status": "proved",
   "theorems": [
    "AsyncZip.C15_located_is_last",
    "AsyncZip.C15_found_if_near",
    "AsyncZip.C15_absent",
    "AsyncZip.C15_completes"
   ],
   "note": "All data and schedules; plus progress for every source that keeps answering."
  },
  {
   "property": "C16",
   "status": "proved",
   "theorems": [
    "AsyncZip.C16_bounded_io"
   ],
   "note": "All data and schedules; seeks counted (one to the end, one per fill)."
  },
  {
   "property": "C17",
   "status": "proved",
   "theorems": [
    "AsyncZip.C17_chunk_independent",
    "AsyncZip.C17_start_irrelevant",
    "AsyncZip.C17_completes"
   ],
   "note": "All data, builds and schedules; plus progress."
  },
  {
   "property": "C18",
   "status": "partial",
   "theorems": [
    "AsyncZip.C18_panics_explained_partial",
    "AsyncZip.C18_release_no_zip64_partial",
    "AsyncZip.C18_never_panics_fails"
   ],
   "note": "Missing: opening does panic for three kinds of input (counterexamples proved); all panics characterised."
  },
  {
   "property": "C19",
   "status": "proved",
   "theorems": [
    "AsyncZip.C19_entries",
    "AsyncZip.C19_spanned_rejected"
   ],
   "note": "All data and schedules for which opening succeeds; records described by offset, independently of the parser."
  },
  {
   "property": "C20",
   "status": "proved",
   "theorems": [
    "AsyncZip.C20_override",
    "AsyncZip.C20_kept",
    "AsyncZip.C20_in_archive"
   ],
   "note": "All records; and tied to byte offsets of the archive."
  },
  {
   "property": "C21",
   "status": "partial",
   "theorems": [
    "AsyncZip.C21_lengths_partial",
    "AsyncZip.C21_declared_lengths_fails"
   ],
   "note": "Missing: the last record may be cut short without an error (counterexample proved)."
  },
  {
   "property": "C22",
   "status": "proved",
   "theorems": [
    "AsyncZip.C22_prefix",
    "AsyncZip.C22_stored",
    "AsyncZip.C22_zero_means_all",
    "AsyncZip.C22_to_end",
    "AsyncZip.C22_completes"
   ],
   "note": "All codecs, uses (any sequence of reads, failures, checksum queries, schedule changes) and sources."
  },
  {
   "property": "C23",
   "status": "proved",
   "theorems": [
    "AsyncZip.C23_hash"
   ],
   "note": "All uses of one entry reader."
  },
  {
   "property": "C24",
   "status": "partial",
   "theorems": [
    "AsyncZip.C24_match_accepted",
    "AsyncZip.C24_everything_partial",
    "AsyncZip.C24_string_outcome",
    "AsyncZip.C24_again",
    "AsyncZip.C24_after_hash_fails",
    "AsyncZip.C24_ok_matches",
    "AsyncZip.C24_mismatch_reported",
    "AsyncZip.C24_string_matches",
    "AsyncZip.C24_burst_detected"
   ],
   "note": "All data; the burst theorem covers any change within four consecutive bytes. 'Everything the reader delivered' holds only if compute_hash, which restarts the checksum, was not called before: C24_everything_partial, C24_after_hash_fails; C24_again for a second check."
  },
  {
   "property": "C25",
   "status": "proved",
   "theorems": [
    "AsyncZip.C25_history_independent"
   ],
   "note": "All histories of calls, any codec, any schedule of the source."
  },
  {
   "property": "C26",
   "status": "proved",
   "theorems": [
    "AsyncZip.C26_isolation"
   ],
   "note": "All interleavings of calls by any number of users; each user's call has its own schedule."
  },
  {
   "property": "C27",
   "status": "proved",
   "theorems": [
    "AsyncZip.C27_out_of_bounds",
    "AsyncZip.C27_in_bounds"
   ],
   "note": "All indices, archives and source states; 'without touching the source' is the ghost log being unchanged."
  },
  {
   "property": "C28",
   "status": "partial",
   "theorems": [
    "AsyncZip.C28_visits_partial",
    "AsyncZip.C28_completes",
    "AsyncZip.C28_stored_stream_fails",
    "AsyncZip.C28_empty"
   ],
   "note": "C28_visits_partial: any archive of at least one entry, any writer configuration, any plan of skips and reads, any source schedule, for programs whose calls all succeeded, whose data is known (for precompressed data: the bytes decode to it and the caller gave its checksum), whose extra fields are well-formed and not the writer's own, and which stream nothing uncompressed. C28_completes: finite progress. C28_stored_stream_fails: an entry streamed without compression is written but refused by the streaming reader. C28_empty: without entries an unexpected header is reported instead of the end."
  },
  {
   "property": "C29",
   "status": "partial",
   "theorems": [
    "AsyncZip.C29_done",
    "AsyncZip.C29_done_early",
    "AsyncZip.C29_skip",
    "AsyncZip.C29_data_start",
    "AsyncZip.C29_exact_partial",
    "AsyncZip.C29_exact_fails"
   ],
   "note": "Missing: with bytes left between the end of the compressed stream and the declared size the source is not left at the next header (counterexample proved); exact for stored entries and for streams that use all declared bytes."
  },
  {
   "property": "C30",
   "status": "proved",
   "theorems": [
    "AsyncZip.C30_consumed",
    "AsyncZip.C30_succeeds"
   ],
   "note": "All sources and schedules."
  },
  {
   "property": "C31",
   "status": "proved",
   "theorems": [
    "AsyncZip.C31_accepts_only",
    "AsyncZip.C31_unknown_signature",
    "AsyncZip.C31_unknown_method",
    "AsyncZip.C31_unsupported"
   ],
   "note": "All sources and schedules; C31_unsupported assumes the extra fields parse, as the code parses them first."
  },
  {
   "property": "C32",
   "status": "proved",
   "theorems": [
    "AsyncZip.C32_offset",
    "AsyncZip.C32_offset_close"
   ],
   "note": "Any writer configuration, any program (list of calls with any sink behaviour, including cancellation, errors, short writes), also during and after closing."
  },
  {
   "property": "C33",
   "status": "proved",
   "theorems": [
    "AsyncZip.C33_append",
    "AsyncZip.C33_append_close",
    "AsyncZip.C33_append_entry"
   ],
   "note": "Bytes are only appended, the sink is never closed, and flushed exactly as often as the program flushed an entry stream itself; closing an entry or the archive flushes nothing."
  },
  {
   "property": "C34",
   "status": "proved",
   "theorems": [
    "AsyncZip.C34_whole",
    "AsyncZip.C34_program",
    "AsyncZip.C34_ops"
   ],
   "note": "Whole entries from any state; whole programs, where stored (or precompressed) streamed data may also be split differently; for compressed streams the splits must agree because the codec is abstract."
  },
  {
   "property": "C35",
   "status": "partial",
   "theorems": [
    "AsyncZip.C35_no_trace_partial",
    "AsyncZip.C35_rejects",
    "AsyncZip.C35_no_trace_fails"
   ],
   "note": "Partial: holds for every validation error except the second extra-field check, which runs after the bytes have been written when the archive is beyond 4 GiB (entry_whole.rs:217-227); C35_no_trace_fails exhibits a reachable state. C35_rejects shows over-long names, comments and extra fields are always rejected."
  },
  {
   "property": "C36",
   "status": "partial",
   "theorems": [
    "AsyncZip.C36_clash_misread",
    "AsyncZip.C36_clash_fails",
    "AsyncZip.C36_offsets_partial"
   ],
   "note": "Any program, including failed, cancelled and abandoned entries. Missing: caller-supplied ZIP64 fields and the collision of a size of exactly 0xFFFFFFFF with an offset-only ZIP64 field. C36_clash_misread says what the records of such entries say, C36_clash_fails that they occur."
  },
  {
   "property": "C37",
   "status": "partial",
   "theorems": [
    "AsyncZip.C37_stream_partial",
    "AsyncZip.C37_exchanged_fails",
    "AsyncZip.C37_descriptor_fails"
   ],
   "note": "Any program, split and sink behaviour; checksum and sizes read off the directory record and the descriptor. Missing: with force_no_zip64 a compressed streamed entry has its sizes exchanged (C37_exchanged_fails, C42_exchanged_fails); ZIP64 descriptors carry placeholder sizes (C37_descriptor_fails)."
  },
  {
   "property": "C38",
   "status": "proved",
   "theorems": [
    "AsyncZip.C38_local",
    "AsyncZip.C38_close",
    "AsyncZip.C38_reports_whole",
    "AsyncZip.C38_reports_open",
    "AsyncZip.C38_reports_stream",
    "AsyncZip.C38_reports_count",
    "AsyncZip.C38_reports_close"
   ],
   "note": "For all histories: local records and central records carry no ZIP64 field (unless the caller supplied one in the entry's own extra fields), no ZIP64 end record is written, and sizes, offsets, counts and directory offsets beyond the limits are reported as Zip64Needed. The directory size is not checked by the code; see C40."
  },
  {
   "property": "C39",
   "status": "partial",
   "theorems": [
    "AsyncZip.C39_values_partial"
   ],
   "note": "All sizes, offsets and counts, read off the directory's bytes per APPNOTE. Missing: same exclusions as C36 (C36_clash_fails); with force_no_zip64 the sizes of streamed entries are exchanged (C46_exchanged_fails); a directory size over 4 GiB alone does not make the archive ZIP64 (C40_size_fails)."
  },
  {
   "property": "C40",
   "status": "partial",
   "theorems": [
    "AsyncZip.C40_end_records_partial",
    "AsyncZip.C40_size_fails",
    "AsyncZip.C40_count_fails"
   ],
   "note": "Any program. Missing: without ZIP64 the classic fields are clamped, and a directory over 4 GiB that starts below 4 GiB closes without ZIP64 and with a wrong size (counterexample proved)."
  },
  {
   "property": "C41",
   "status": "partial",
   "theorems": [
    "AsyncZip.C41_locator_fails",
    "AsyncZip.C41_locator_panics_fails",
    "AsyncZip.C41_ordinary_partial",
    "AsyncZip.C41_metadata_partial",
    "AsyncZip.C41_small_partial"
   ],
   "note": "Any program ending in a successful close whose bytes are legible (the last end signature is the real one and no locator is faked). Missing: archives that are not legible (C41_locator_fails and C41_locator_panics_fails show two), caller-supplied ZIP64 fields, exchanged sizes with force_no_zip64."
  },
  {
   "property": "C42",
   "status": "partial",
   "theorems": [
    "AsyncZip.C42_exchanged_fails",
    "AsyncZip.C42_ordinary_partial",
    "AsyncZip.C42_content_partial",
    "AsyncZip.C42_completes"
   ],
   "note": "Any program, codec, reader schedule. Missing: same exclusions as C41."
  },
  {
   "property": "C43",
   "status": "partial",
   "theorems": [
    "AsyncZip.C43_refused_fails",
    "AsyncZip.C43_not_listed",
    "AsyncZip.C43_harmless_partial"
   ],
   "note": "Any program with failures, cancellations and abandoned streams anywhere; every listed entry keeps its metadata and data. Missing: the refused-but-listed case is proved as a violation (C43_refused_fails); archives must be legible (see C41)."
  },
  {
   "property": "C44",
   "status": "partial",
   "theorems": [
    "AsyncZip.C44_equivalent_partial",
    "AsyncZip.C44_compressed_size_fails",
    "AsyncZip.C44_precompressed_partial"
   ],
   "note": "Any two programs and contexts. Missing: compressed sizes can differ (C44_compressed_size_fails); force_no_zip64 with compressed streams; archives must be legible (see C41)."
  },
  {
   "property": "C45",
   "status": "partial",
   "theorems": [
    "AsyncZip.C45_comment_partial",
    "AsyncZip.C45_small_partial",
    "AsyncZip.C45_long_fails",
    "AsyncZip.C45_embedded_fails"
   ],
   "note": "Any program and reader. Missing: comments over 65535 bytes (C45_long_fails) and archives in which something after the start of the end record looks like another (C45_embedded_fails); C45_small_partial gives conditions on the calls that exclude the latter."
  },
  {
   "property": "C46",
   "status": "partial",
   "theorems": [
    "AsyncZip.C46_verbatim_partial",
    "AsyncZip.C46_exchanged_fails"
   ],
   "note": "Any program. Missing: streamed precompressed entries under force_no_zip64 (C46_exchanged_fails: the sizes are always exchanged), the offset/size collision, caller-supplied ZIP64 fields."
  },
  {
   "property": "C47",
   "status": "partial",
   "theorems": [
    "AsyncZip.C47_calls_partial",
    "AsyncZip.C47_close",
    "AsyncZip.C47_deflate64_panics",
    "AsyncZip.C47_closed_fails",
    "AsyncZip.C47_compress_panics"
   ],
   "note": "Missing from the full statement: using the writer of a compressed entry after AsyncWrite::close reaches async_compression, which in some versions panics (C47_closed_fails); C47_calls_partial shows this and Deflate64 are the only ways. Closing the archive never panics. C47_deflate64_panics shows the stated exception is real; C47_compress_panics records that the public free function compress also panics for Stored."
  },
  {
   "property": "C48",
   "status": "partial",
   "theorems": [
    "AsyncZip.C48_readable_fields",
    "AsyncZip.C48_copy_partial",
    "AsyncZip.C48_twice_fails",
    "AsyncZip.C48_renamed_fails"
   ],
   "note": "C48_readable_fields: what the reader returns for any accepted archive can be written back in full. C48_copy_partial: an entry read from any archive whatsoever and written into any new archive reads back with the same name, comment, dates, attributes, extra fields and data. Missing: entries with a ZIP64 field (C48_twice_fails: the second copy of a streamed entry is corrupt) and with unicode fields that disagree with the name (C48_renamed_fails)."
  },
  {
   "property": "C49",
   "status": "partial",
   "theorems": [
    "AsyncZip.C49_no_panic",
    "AsyncZip.C49_round_trip_partial",
    "AsyncZip.C49_stored_dates",
    "AsyncZip.C49_order",
    "AsyncZip.C49_years_fails"
   ],
   "note": "Partial: years outside 1980-2107 are stored modulo 128 without any error (C49_years_fails); within that range the conversion keeps all but the odd second, and as_chrono is characterised on every stored word. chrono itself (calendar arithmetic of with_ymd_and_hms) is modelled, not verified."
  },
  {
   "property": "C50",
   "status": "partial",
   "theorems": [
    "AsyncZip.C50_seekable",
    "AsyncZip.C50_shared",
    "AsyncZip.C50_checked",
    "AsyncZip.C50_streaming_partial",
    "AsyncZip.C50_streaming_fails"
   ],
   "note": "Partial: seekable, in-memory and file readers, checked reads, skip and done never panic; the streaming reader's next_with_entry panics in builds with overflow checks on an overlong extra field (C50_streaming_fails), and C50_streaming_partial says that this is the only way."
  },
  {
   "property": "C51",
   "status": "proved",
   "theorems": [
    "AsyncZip.C51_seekable",
    "AsyncZip.C51_shared"
   ],
   "note": "Two-run (non-interference) statement for the seekable reader and for any interleaving of users of a shared reader. Of the local header only the signature and the two lengths matter."
  },
  {
   "property": "C52",
   "status": "proved",
   "theorems": [
    "AsyncZip.C52_call",
    "AsyncZip.C52_program",
    "AsyncZip.C52_completes"
   ],
   "note": "Limits: name and comment up to 65535 bytes, extra fields with 54 bytes and the Unicode texts to spare. C52_completes shows that completion is reached, so the statement is not vacuous."
  },
  {
   "property": "C53",
   "status": "partial",
   "theorems": [
    "AsyncZip.C53_tiling_partial",
    "AsyncZip.C53_disk_fails"
   ],
   "note": "Any program whose caller puts no ZIP64 field on an entry; unknown fields need not be truthful. Missing: ZIP64 fields of the caller with a disk number (C53_disk_fails: the record's own lengths then place its data four bytes too far on); a directory record's offset is in doubt in the cases of C36."
  },
  {
   "property": "C54",
   "status": "partial",
   "theorems": [
    "AsyncZip.C54_fields_partial",
    "AsyncZip.C54_empty_fails"
   ],
   "note": "A last field without content is lost (C54_empty_fails). Legible and Clash as in C41."
  },
  {
   "property": "C55",
   "status": "partial",
   "theorems": [
    "AsyncZip.C55_header_size_partial",
    "AsyncZip.C55_streamed_fails"
   ],
   "note": "The crate documents that the two extra fields may differ; the theorem says by how much. C55_streamed_fails shows that the naive reading is wrong for streamed entries. Legible and Clash as in C41."
  },
  {
   "property": "C56",
   "status": "partial",
   "theorems": [
    "AsyncZip.C56_versions_partial",
    "AsyncZip.C56_zip64_fails"
   ],
   "note": "Any program. Missing: directories whose name is not UTF-8 (C14_raw_directory_fails) and entries with a ZIP64 field, for which C56_zip64_fails shows a version needed of 2.0."
  },
  {
   "property": "C57",
   "status": "partial",
   "theorems": [
    "AsyncZip.C57_same_archive",
    "AsyncZip.C57_whole_file_fails",
    "AsyncZip.C57_mistaken_fails"
   ],
   "note": "The results and the appended bytes are the same. Reading the whole file does not work (C57_whole_file_fails), and if what was there is an archive laid out alike, its entries are shown instead (C57_mistaken_fails)."
  },
  {
   "property": "C58",
   "status": "proved",
   "theorems": [
    "AsyncZip.C58_index_only",
    "AsyncZip.C58_entries_unread",
    "AsyncZip.C58_trailing"
   ],
   "note": ""
  },
  {
   "property": "C59",
   "status": "partial",
   "theorems": [
    "AsyncZip.C59_cut_partial",
    "AsyncZip.C59_comment",
    "AsyncZip.C59_comment_fails",
    "AsyncZip.C59_nested_fails"
   ],
   "note": "C59_cut_partial: for files with a single end record signature, every cut before the end of the fixed part of the end record is refused with one of two errors. C59_comment_fails: a cut inside the archive comment opens with the shorter comment; C59_comment: that is so for every file and every such cut, with nothing else changed. C59_nested_fails: a cut behind a stored archive opens as that archive."
  },
  {
   "property": "C60",
   "status": "proved",
   "theorems": [
    "AsyncZip.C60_same",
    "AsyncZip.C60_refused",
    "AsyncZip.C60_stored"
   ],
   "note": "All schedules of the sink, including closes it interrupts. C60_same compares two complete runs; C60_refused and C60_stored hold whatever the sink does."
  },
  {
   "property": "C61",
   "status": "partial",
   "theorems": [
    "AsyncZip.C61_streaming_partial",
    "AsyncZip.C61_seekable_fails"
   ],
   "note": "Holds for the streaming reader. The seekable and shared readers do not look at the bit (C61_seekable_fails)."
  },
  {
   "property": "C62",
   "status": "partial",
   "theorems": [
    "AsyncZip.C62_agree_partial",
    "AsyncZip.C62_twofaced_fails"
   ],
   "note": "For programs as in C28 and archives as in C42. Archives of other origin can look different to the two readers (C62_twofaced_fails)."
  },
  {
   "property": "C63",
   "status": "partial",
   "theorems": [
    "AsyncZip.C63_listing_partial",
    "AsyncZip.C63_streaming_partial",
    "AsyncZip.C63_shared_fails"
   ],
   "note": "Listing and streaming reader: proved, for all files. Data read through the directory may be shared by entries (C63_shared_fails)."
  },
  {
   "property": "C64",
   "status": "proved",
   "theorems": [
    "AsyncZip.C64_prefix",
    "AsyncZip.C64_resumed",
    "AsyncZip.C64_retry"
   ],
   "note": "Any sequence of calls on one entry reader, failed and dropped read_to_end calls included. A vector given to read_to_end keeps what was read before a failure, as AsyncReadExt documents; that crate itself is not modelled."
  },
  {
   "property": "C65",
   "status": "proved",
   "theorems": [
    "AsyncZip.C65_streaming",
    "AsyncZip.C65_seekable",
    "AsyncZip.C65_one_for_all"
   ],
   "note": ""
  },
  {
   "property": "C66",
   "status": "partial",
   "theorems": [
    "AsyncZip.C66_opening",
    "AsyncZip.C66_entry",
    "AsyncZip.C66_data",
    "AsyncZip.C66_streaming_partial"
   ],
   "note": "Streaming is partial: the requests that decompressors make of the source are not part of the model (their schedule is), so they are not counted."
  },
  {
   "property": "C67",
   "status": "partial",
   "theorems": [
    "AsyncZip.C67_archive_partial"
   ],
   "note": "Missing: entries with a ZIP64 field or with Info-ZIP unicode fields that contradict the name or comment, for which copying changes the entry (C48_twice_fails, C48_renamed_fails); archive comments that are not UTF-8, which the writer cannot be given."
  },
  {
   "property": "C68",
   "status": "partial",
   "theorems": [
    "AsyncZip.C68_checked_partial",
    "AsyncZip.C68_descriptor_fails"
   ],
   "note": "C68_checked_partial: for archives as in C28 (calls that all succeeded, extra fields that are not the writer's own, nothing streamed without compression), any plan of skips, reads, partial reads and checked reads, any schedule; the checked entries were written whole, or carried the right checksum already. C68_descriptor_fails: the check of any other streamed entry, in any such archive, ends in a checksum error."
  },
  {
   "property": "C69",
   "status": "partial",
   "theorems": [
    "AsyncZip.C69_before",
    "AsyncZip.C69_last_partial",
    "AsyncZip.C69_noticed",
    "AsyncZip.C69_all_or_nothing",
    "AsyncZip.C69_short_fails"
   ],
   "note": "C69_before, C69_noticed and C69_all_or_nothing are the claim for what precedes the cut and for clients that read until they are told there are no more entries (the latter for all archives of all programs, under the hypotheses of C28). Missing: the entry in which the cut is may be handed out short and without an error when the client stops after it (C69_short_fails); C69_last_partial shows that nothing else can happen."
  },
  {
   "property": "C70",
   "status": "partial",
   "theorems": [
    "AsyncZip.C70_contained_partial",
    "AsyncZip.C70_others_partial"
   ],
   "note": "C70_contained_partial: any change before the directory, entry by entry (intact record: data as before; any record: nothing with a wrong checksum is returned; stored entry and a burst of at most four bytes in its data: checksum error). C70_others_partial: a change within one record leaves all other entries alone. Missing: the archives excluded in C42 (not legible, exchanged sizes, offset/size collision)."
  },
  {
   "property": "C71",
   "status": "partial",
   "theorems": [
    "AsyncZip.C71_ahead",
    "AsyncZip.C71_behind",
    "AsyncZip.C71_up_to",
    "AsyncZip.C71_directory_partial"
   ],
   "note": "C71_ahead, C71_behind and C71_up_to hold of all files. C71_directory_partial, for written archives, has the conditions of C28 (no refused or abandoned calls, no stored streams)."
  },
  {
   "property": "C72",
   "status": "partial",
   "theorems": [
    "AsyncZip.C72_contained",
    "AsyncZip.C72_noticed",
    "AsyncZip.C72_burst",
    "AsyncZip.C72_compressed_fails"
   ],
   "note": "Proved for stored entries. The claim does not extend to compressed ones, as C72_compressed_fails shows."
  },
  {
   "property": "C73",
   "status": "proved",
   "theorems": [
    "AsyncZip.C73_entry",
    "AsyncZip.C73_archive",
    "AsyncZip.C73_write_all",
    "AsyncZip.C73_counting"
   ],
   "note": "The claim is proved as stated. C73_counting records that the counting writer under the entry writer has a vectored write that does not count; it is unreachable."
  },
  {
   "property": "C74",
   "status": "proved",
   "theorems": [
    "AsyncZip.C74_opens_iff",
    "AsyncZip.C74_entry_iff"
   ],
   "note": "Both directions, for every byte string and schedule. As in C19 it is assumed that the locator's offset plus four does not overflow; C18 says what happens otherwise. `most` is the largest number of entries a vector can be allocated for."
  },
  {
   "property": "C75",
   "status": "proved",
   "theorems": [
    "AsyncZip.C75_next_iff",
    "AsyncZip.C75_shown"
   ],
   "note": "Both directions, for every byte string and schedule."
  },
  {
   "property": "C76",
   "status": "proved",
   "theorems": [
    "AsyncZip.C76_checksum",
    "AsyncZip.C76_pieces",
    "AsyncZip.C76_checked",
    "AsyncZip.C76_written"
   ],
   "note": "`crc32fast` is not in the repository; what is shown is that the algorithm standing for it in the model is CRC-32 as the standards define it."
  },
  {
   "property": "C77",
   "status": "proved",
   "theorems": [
    "AsyncZip.C77_open_outcome",
    "AsyncZip.C77_entry_outcome",
    "AsyncZip.C77_next_outcome"
   ],
   "note": "Both directions, for every byte string shorter than 2^64 and every schedule, with one exception: without overflow checks the locator's offset plus four is assumed not to wrap (C18 says what happens then). C77_open_outcome includes C74_opens_iff, with a weaker assumption."
  },
  {
   "property": "C78",
   "status": "proved",
   "theorems": [
    "AsyncZip.C78_whole",
    "AsyncZip.C78_whole_early",
    "AsyncZip.C78_open",
    "AsyncZip.C78_open_early",
    "AsyncZip.C78_close_stream",
    "AsyncZip.C78_close"
   ],
   "note": "One table of refusals per call (Spec/Verdict.lean), in the order they apply; the result of the call is that of the first row that holds. Interrupted calls (sink error, dropped future) are excluded by Completed, except for the early rows, which hold under every schedule."
  },
  {
   "property": "C79",
   "status": "proved",
   "theorems": [
    "AsyncZip.C79_path",
    "AsyncZip.C79_contained"
   ],
   "note": ""
  },
  {
   "property": "C80",
   "status": "partial",
   "theorems": [
    "AsyncZip.C80_extracted",
    "AsyncZip.C80_checksum_fails"
   ],
   "note": "proved in full; C80_checksum_fails records that the content is whatever was read, checksum or not"
  },
  {
   "property": "C81",
   "status": "proved",
   "theorems": [
    "AsyncZip.C81_completes"
   ],
   "note": ""
  },
  {
   "property": "C82",
   "status": "proved",
   "theorems": [
    "AsyncZip.C82_packed"
   ],
   "note": ""
  },
  {
   "property": "C83",
   "status": "partial",
   "theorems": [
    "AsyncZip.C83_independent_partial",
    "AsyncZip.C83_content_partial",
    "AsyncZip.C83_exchanged_fails"
   ],
   "note": "The independent reader is an executable function written from the specification and not from the code. Partial where the writer leaves the specification: exchanged sizes of compressed streams with force_no_zip64 (shown rejected), a size of exactly 0xFFFFFFFF beyond 4 GiB, a directory longer than 4 GiB without ZIP64, and archives in which a signature inside the comment misleads every reader (Legible)."
  },
  {
   "property": "C84",
   "status": "proved",
   "theorems": [
    "AsyncZip.C84_accepted",
    "AsyncZip.C84_disagreement_unnoticed"
   ],
   "note": "Complete for what it says. The converse does not hold and is not claimed: the library opens archives whose local headers contradict the directory (C84_disagreement_unnoticed, with a witness)."
  },
  {
   "property": "C85",
   "status": "partial",
   "theorems": [
    "AsyncZip.C85_sequential_partial",
    "AsyncZip.C85_streamed_fails",
    "AsyncZip.C85_exchanged_fails"
   ],
   "note": "Exact for archives in which every call succeeded or wrote nothing, with the caller's own extra fields and data known (DataIn). Partial because the claim fails for streams: C85_streamed_fails (every program without force_no_zip64 that streams) and C85_exchanged_fails (with it)."
  },
  {
   "property": "C86",
   "status": "partial",
   "theorems": [
    "AsyncZip.C86_streaming_partial",
    "AsyncZip.C86_checked_partial",
    "AsyncZip.C86_zip64_descriptor_fails",
    "AsyncZip.C86_empty_fails"
   ],
   "note": "Partial because the library fails on a data descriptor behind a ZIP64 local header (C86_zip64_descriptor_fails, every such archive), on archives without entries (C86_empty_fails) and, as in C84, on incomplete Info-ZIP Unicode fields."
  },
  {
   "property": "C87",
   "status": "proved",
   "theorems": [
    "AsyncZip.C87_length",
    "AsyncZip.C87_foreseen"
   ],
   "note": "proved for programs all of whose calls succeeded (a failed or abandoned call leaves bytes whose number depends on where it failed) and whose user-supplied extra fields contain no ZIP64 field."
  },
  {
   "property": "C88",
   "status": "partial",
   "theorems": [
    "AsyncZip.C88_classic_partial",
    "AsyncZip.C88_failures_partial",
    "AsyncZip.C88_stream_fails"
   ],
   "note": "partial: streams ask for ZIP64 even where it is not needed (C88_stream_fails); compressed streams with force_no_zip64 have their sizes exchanged; the comment must not contain the signature of an end record."
  },
  {
   "property": "C89",
   "status": "partial",
   "theorems": [
    "AsyncZip.C89_irrelevant",
    "AsyncZip.C89_option_partial",
    "AsyncZip.C89_named",
    "AsyncZip.C89_other_method_fails"
   ],
   "note": "C89_option_partial: the option has no effect unless an entry is compressed in one piece; the documented claim (no effect unless the method is deflate) is false, C89_other_method_fails."
  },
  {
   "property": "C90",
   "status": "proved",
   "theorems": [
    "AsyncZip.C90_built",
    "AsyncZip.C90_determined",
    "AsyncZip.C90_permissions"
   ],
   "note": ""
  },
  {
   "property": "C91",
   "status": "partial",
   "theorems": [
    "AsyncZip.C91_reported_partial",
    "AsyncZip.C91_host_fails",
    "AsyncZip.C91_stream_fails"
   ],
   "note": "C91_reported_partial: what is reported is the upper half of the external attributes, for every opened archive. Not so: None for other hosts (C91_host_fails), and permissions of entries read from a stream (C91_stream_fails: always 000)."
  },
  {
   "property": "C92",
   "status": "partial",
   "theorems": [
    "AsyncZip.C92_beginning",
    "AsyncZip.C92_unclosed_partial",
    "AsyncZip.C92_underway_partial",
    "AsyncZip.C92_comment_fails"
   ],
   "note": "C92_beginning (full): a failed close leaves a proper beginning of the archive. C92_unclosed_partial, C92_underway_partial: it does not open, provided the archive has one end record signature and close failed before the comment. C92_comment_fails: a failure within the comment is not noticed."
  },
  {
   "property": "C93",
   "status": "proved",
   "theorems": [
    "AsyncZip.C93_inserted",
    "AsyncZip.C93_flush",
    "AsyncZip.C93_ruined"
   ],
   "note": ""
  },
  {
   "property": "C94",
   "status": "proved",
   "theorems": [
    "AsyncZip.C94_opens",
    "AsyncZip.C94_error",
    "AsyncZip.C94_failing",
    "AsyncZip.C94_all",
    "AsyncZip.C94_streaming"
   ],
   "note": ""
  },
  {
   "property": "C95",
   "status": "proved",
   "theorems": [
    "AsyncZip.C95_opens",
    "AsyncZip.C95_failing",
    "AsyncZip.C95_too_many",
    "AsyncZip.C95_panics",
    "AsyncZip.C95_streaming",
    "AsyncZip.C95_wide"
   ],
   "note": "`top` is the number of values of usize. hb: no target can allocate that many entries. hfit leaves out files whose ZIP64 locator points to the last four bytes a u64 can count, as in C77. C95_wide shows that for 64 bits the parametrised functions are those used everywhere else."
  },
  {
   "property": "C96",
   "status": "proved",
   "theorems": [
    "AsyncZip.C96_whole",
    "AsyncZip.C96_counterpart",
    "AsyncZip.C96_stream"
   ],
   "note": "C96_whole is for programs with any number of calls replaced, with results, closing and bytes equal under the same sink; C96_counterpart shows that every supported call has its counterpart; C96_stream compares streams under different sinks."
  },
  {
   "property": "C97",
   "status": "partial",
   "theorems": [
    "AsyncZip.C97_header",
    "AsyncZip.C97_null_partial",
    "AsyncZip.C97_null_fails"
   ],
   "note": "C97_header says exactly what the local header has, for every streamed entry. The statement as documented holds for entries that carry no checksum and sizes (C97_null_partial) and fails for others (C97_null_fails)."
  },
  {
   "property": "C98",
   "status": "partial",
   "theorems": [
    "AsyncZip.C98_walk",
    "AsyncZip.C98_directory_partial",
    "AsyncZip.C98_completes_partial",
    "AsyncZip.C98_single",
    "AsyncZip.C98_root_fails",
    "AsyncZip.C98_root_panics_fails"
   ],
   "note": "Full for every directory but the root directory, for which it is false (C98_root_fails, C98_root_panics_fails). The module is behind a cfg that is never true; its text is what is modelled."
  },
  {
   "property": "C99",
   "status": "partial",
   "theorems": [
    "AsyncZip.C99_restored_partial",
    "AsyncZip.C99_single",
    "AsyncZip.C99_empty_directories_fails"
   ],
   "note": "Files are restored exactly, and single files with the whole disk otherwise unchanged (C99_single). Empty directories are lost (C99_empty_directories_fails), so the clause about directories holds only for those on the way to a file."
  },
  {
   "property": "C100",
   "status": "partial",
   "theorems": [
    "AsyncZip.C100_records_partial",
    "AsyncZip.C100_stale",
    "AsyncZip.C100_lost",
    "AsyncZip.C100_large_fails",
    "AsyncZip.C100_far_fails"
   ],
   "note": "Holds for streamed entries and for entries that fit the 32-bit fields (C100_records_partial). A large entry written in one go is recorded with the sizes in the first ZIP64 field it brought along (C100_stale, for all programs), and a small one beyond 4 GiB is said to be where the uncompressed size in that field points (C100_lost). C100_large_fails and C100_far_fails are archives, made by this crate from entries it read, where these are wrong."
  },
  {
   "property": "C101",
   "status": "partial",
   "theorems": [
    "AsyncZip.C101_repacked_partial",
    "AsyncZip.C101_restored_partial",
    "AsyncZip.C101_copied_partial",
    "AsyncZip.C101_origin_partial"
   ],
   "note": "Partial: entries of 4 GiB or more written in one go together with a ZIP64 field, and small ones beyond 4 GiB, are recorded wrongly by the code (C100_large_fails, C100_far_fails); what is asked of the end records, Clash and streams with force_no_zip64 as in C83."
  },
  {
   "property": "C102",
   "status": "partial",
   "theorems": [
    "AsyncZip.C102_generations_partial"
   ],
   "note": "Partial: entries with ZIP64 fields (C48_twice_fails: already the second copy can be wrong), with unicode fields that contradict them, and archives beyond 4 GiB, as for C67; fields without content at the end of the list of an entry are lost (C54_empty_fails)."
  },
  {
   "property": "C103",
   "status": "partial",
   "theorems": [
    "AsyncZip.C103_collected_partial",
    "AsyncZip.C103_descriptors_partial",
    "AsyncZip.C103_assembled_partial"
   ],
   "note": "Partial: C103_collected_partial for entries without ZIP64 field and without unicode fields that contradict them; C103_descriptors_partial for ZIP64 fields as this crate writes them (names as bytes). Below 4 GiB; the end records as in C41."
  },
  {
   "property": "C104",
   "status": "partial",
   "theorems": [
    "AsyncZip.C104_stored",
    "AsyncZip.C104_left",
    "AsyncZip.C104_completes",
    "AsyncZip.C104_read_partial",
    "AsyncZip.C104_unpacked_partial",
    "AsyncZip.C104_streamed"
   ],
   "note": "The program is shown to be a sequence of streaming calls on a fresh writer for every behaviour of the file. Reading needs what C41 and C42 need: no second end record in the last 22 bytes, no size that equals the ZIP64 mark beyond 4 GiB; a locator cannot be mistaken, because these archives end in ZIP64 form. The example is text that is never compiled (finding 33)."
  },
  {
   "property": "C105",
   "status": "partial",
   "theorems": [
    "AsyncZip.C105_seekable",
    "AsyncZip.C105_shared",
    "AsyncZip.C105_checked",
    "AsyncZip.C105_size_partial",
    "AsyncZip.C105_size_fails"
   ],
   "note": "C105_size_partial holds for entries the writer compressed or stored itself; C105_size_fails shows the full statement is false for precompressed data, whose declared uncompressed size nobody checks."
  },
  {
   "property": "C106",
   "status": "partial",
   "theorems": [
    "AsyncZip.C106_isolation",
    "AsyncZip.C106_when_opened",
    "AsyncZip.C106_unnoticed",
    "AsyncZip.C106_session",
    "AsyncZip.C106_checksum",
    "AsyncZip.C106_replaced_fails"
   ],
   "note": "The full statement fails for clients that do not compare the checksum (C106_replaced_fails); everything else holds for all contents of the path at every call. Writing into an open file is not modelled."
  },
  {
   "property": "C107",
   "status": "partial",
   "theorems": [
    "AsyncZip.C107_plain",
    "AsyncZip.C107_panics_iff",
    "AsyncZip.C107_owned",
    "AsyncZip.C107_unexchanged",
    "AsyncZip.C107_exchanged_partial",
    "AsyncZip.C107_borrowed_fails",
    "AsyncZip.C107_descriptor_fails"
   ],
   "note": "The full statement fails: done/skip panic with a borrowing entry reader (C107_borrowed_fails), and the data descriptor flag is not exchanged (C107_descriptor_fails). Proved: exactly when leaving panics, that nothing panics if none borrows or nothing is exchanged, and that exchanges between streams whose entries agree in the flag exchange the streams."
  },
  {
   "property": "C108",
   "status": "proved",
   "theorems": [
    "AsyncZip.C108_unnoticed",
    "AsyncZip.C108_moved",
    "AsyncZip.C108_replaced"
   ],
   "note": ""
  },
  {
   "property": "C109",
   "status": "partial",
   "theorems": [
    "AsyncZip.C109_opened_partial",
    "AsyncZip.C109_until_close",
    "AsyncZip.C109_any_time",
    "AsyncZip.C109_end",
    "AsyncZip.C109_late_partial",
    "AsyncZip.C109_late_exact",
    "AsyncZip.C109_late_fails"
   ],
   "note": "What force_zip64 does to what is written is shown without conditions; that the archives open alike is shown under what C41 assumes of both (C109_opened_partial). The part about force_no_zip64 fails when a stream or force_zip64 came before it (C109_late_fails); proved when nothing has asked for ZIP64 by then (C109_late_partial)."
  },
  {
   "property": "C110",
   "status": "partial",
   "theorems": [
    "AsyncZip.C110_opened_partial",
    "AsyncZip.C110_until_close",
    "AsyncZip.C110_last",
    "AsyncZip.C110_end"
   ],
   "note": "What is written is shown of all programs and in every state of the writer; the length is recorded on 16 bits, so a longer comment is not read back (C45_long_fails). That the archives open alike is shown under what C41 assumes of both (legible archives)."
  },
  {
   "property": "C111",
   "status": "partial",
   "theorems": [
    "AsyncZip.C111_listing",
    "AsyncZip.C111_rebuilt",
    "AsyncZip.C111_empty",
    "AsyncZip.C111_kept",
    "AsyncZip.C111_written_partial"
   ],
   "note": "Strings given to the builder are any that keep the promise C11 shows of all strings that safe code can make. The part about archives that were written is shown under what C42 assumes of them (legible archives; under force_no_zip64 no streams of compressed or precompressed data; beyond 4 GiB no size of exactly 0xFFFFFFFF)."
  }
 ]
}