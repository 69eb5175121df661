{
 "claims": [
  {
   "property": "C01",
   "status": "proved",
   "theorems": [
    "Vcd.Props.round_trip",
    "Vcd.Props.simple_round_trip"
   ],
   "note": "Dictionary and each chunk together below 2^31 bytes, chunks below 2^31 - 64."
  },
  {
   "property": "C02",
   "status": "proved",
   "theorems": [
    "Vcd.Props.finer_chunks_same_output",
    "Vcd.Props.deliveries_agree",
    "Vcd.Props.one_call_then_any_chunks",
    "Vcd.Props.simple_decode_then_any_chunks"
   ],
   "note": ""
  },
  {
   "property": "C03",
   "status": "partial",
   "theorems": [
    "Vcd.Props.verdict_independent_partial",
    "Vcd.Props.accepted_in_any_chunks",
    "Vcd.Props.refused_in_any_chunks",
    "Vcd.Props.verdict_differs_only_with_surplus",
    "Vcd.Props.verdict_depends_on_chunks"
   ],
   "note": "Proved for every delta, custom code tables included, except files of the library grammar with an interleaved window that announces more bytes than it has; false of the code for these (witness)."
  },
  {
   "property": "C04",
   "status": "partial",
   "theorems": [
    "Vcd.Props.decoder_faults_partial",
    "Vcd.Props.no_near_254_no_cache_fault",
    "Vcd.Props.decoder_safe_plain",
    "Vcd.Props.custom_cache_out_of_bounds"
   ],
   "note": "False of the code for custom caches with 254 NEAR slots (witness); proved for every call history that all other faults but the C05 overflow are excluded, and that this one needs a header announcing 254 NEAR slots among the bytes fed in the session."
  },
  {
   "property": "C05",
   "status": "partial",
   "theorems": [
    "Vcd.Props.decodeAddress_overflow_partial",
    "Vcd.Props.decodeAddress_overflow_reachable",
    "Vcd.Props.decoder_safe_plain",
    "Vcd.Props.near_overflow_reachable"
   ],
   "note": "False of the code: the NEAR-mode addition can overflow (witness at API level); it is the only overflow."
  },
  {
   "property": "C06",
   "status": "proved",
   "theorems": [
    "Vcd.Props.file_size_respected",
    "Vcd.Props.lowered_limit_ignored",
    "Vcd.Props.output_is_windows",
    "Vcd.Props.window_limit_respected"
   ],
   "note": "File limit for every history of calls; window limit for every delta, custom code tables included."
  },
  {
   "property": "C07",
   "status": "partial",
   "theorems": [
    "Vcd.Props.accepted_follows_grammar_partial",
    "Vcd.Props.accepts_exactly_library",
    "Vcd.Props.standard_accepts_exactly_library",
    "Vcd.Props.grammar_unambiguous",
    "Vcd.Props.strict_is_common",
    "Vcd.Props.empty_delta_accepted",
    "Vcd.Props.dangling_opcode_accepted",
    "Vcd.Props.interleaved_excess_accepted"
   ],
   "note": "Exact characterisation of what is accepted, custom code tables included; false of the code with respect to the RFC on three points, each with a witness."
  },
  {
   "property": "C08",
   "status": "partial",
   "theorems": [
    "Vcd.Props.conforming_accepted_partial",
    "Vcd.Props.accepts_exactly_library",
    "Vcd.Props.standard_accepts_exactly_library",
    "Vcd.Props.trailing_instruction_refused",
    "Vcd.Props.rfc_table_refused"
   ],
   "note": "False of the code for instructions of size 0 after the end of the target and for custom code tables in the format of the RFC (witnesses); proved for all other conforming deltas, in all chunkings."
  },
  {
   "property": "C09",
   "status": "proved",
   "theorems": [
    "Vcd.Props.output_is_windows",
    "Vcd.Props.checksum_matches"
   ],
   "note": ""
  },
  {
   "property": "C10",
   "status": "proved",
   "theorems": [
    "Vcd.Props.adler_detects_one_byte",
    "Vcd.Props.adler_detects_two_bytes",
    "Vcd.Props.adler_misses_distant_bytes",
    "Vcd.Props.adler_misses_three_bytes"
   ],
   "note": ""
  },
  {
   "property": "C11",
   "status": "proved",
   "theorems": [
    "Vcd.Props.failure_sticky"
   ],
   "note": ""
  },
  {
   "property": "C12",
   "status": "partial",
   "theorems": [
    "Vcd.Props.decoder_reuse_partial",
    "Vcd.Props.reuse_without_usable_tables_partial",
    "Vcd.Props.only_code_table_survives",
    "Vcd.Props.used_decoder_exact",
    "Vcd.Props.used_decoder_sound",
    "Vcd.Props.own_table_prevails",
    "Vcd.Props.finish_after_failure_optional",
    "Vcd.Props.custom_table_leaks"
   ],
   "note": "False of the code after a delta with a usable custom code table (witness). Proved for all other histories; and for every history, only a code table is left, what is accepted with it is characterized exactly, and deltas that bring their own usable table are not affected."
  },
  {
   "property": "C13",
   "status": "proved",
   "theorems": [
    "Vcd.Props.prefix_outputs_prefix",
    "Vcd.Props.truncated_decodes_to_prefix",
    "Vcd.Props.truncated_is_whole_windows"
   ],
   "note": ""
  },
  {
   "property": "C14",
   "status": "proved",
   "theorems": [
    "Vcd.Props.bad_header_rejected"
   ],
   "note": ""
  },
  {
   "property": "C15",
   "status": "proved",
   "theorems": [
    "Vcd.Props.output_is_windows",
    "Vcd.Props.no_target_window",
    "Vcd.Props.target_window_refused",
    "Vcd.Props.retained_target_bounded",
    "Vcd.Props.nested_target_window_accepted"
   ],
   "note": ""
  },
  {
   "property": "C16",
   "status": "proved",
   "theorems": [
    "Vcd.Props.varint32_roundtrip",
    "Vcd.Props.varint64_roundtrip",
    "Vcd.Props.varint_negative"
   ],
   "note": ""
  },
  {
   "property": "C17",
   "status": "proved",
   "theorems": [
    "Vcd.Props.varint_parse_ok",
    "Vcd.Props.varint_parse_endOfData",
    "Vcd.Props.varint_parse_error",
    "Vcd.Props.varint_parse_stable",
    "Vcd.Props.varint_accumulator_in_range"
   ],
   "note": ""
  },
  {
   "property": "C18",
   "status": "proved",
   "theorems": [
    "Vcd.Props.addrCache_agreement"
   ],
   "note": "For near size <= 253; near size 254 is broken (addrCache_254_broken)."
  },
  {
   "property": "C19",
   "status": "proved",
   "theorems": [
    "Vcd.Props.decodeAddress_in_range",
    "Vcd.Props.decodeAddress_negative_here",
    "Vcd.Props.decodeAddress_accepts"
   ],
   "note": ""
  },
  {
   "property": "C20",
   "status": "proved",
   "theorems": [
    "Vcd.Props.encodeAddress_shortest",
    "Vcd.Props.encodeAddress_least"
   ],
   "note": ""
  },
  {
   "property": "C21",
   "status": "proved",
   "theorems": [
    "Vcd.Props.addrCache_contents"
   ],
   "note": ""
  },
  {
   "property": "C22",
   "status": "proved",
   "theorems": [
    "Vcd.Props.default_table_is_rfc",
    "Vcd.Props.default_table_usable",
    "Vcd.Props.default_table_validates"
   ],
   "note": ""
  },
  {
   "property": "C23",
   "status": "proved",
   "theorems": [
    "Vcd.Props.validate_exact"
   ],
   "note": ""
  },
  {
   "property": "C24",
   "status": "partial",
   "theorems": [
    "Vcd.Props.instruction_map_builds_partial",
    "Vcd.Props.default_map_builds",
    "Vcd.Props.lookup_first_exact",
    "Vcd.Props.lookup_first_size0",
    "Vcd.Props.lookup_second_exact",
    "Vcd.Props.instruction_map_oob"
   ],
   "note": "Lookups exact. Building the map is false of the code for some valid custom tables (witness instruction_map_oob); instruction_map_builds_partial says exactly which ones."
  },
  {
   "property": "C25",
   "status": "proved",
   "theorems": [
    "Vcd.Props.writer_window",
    "Vcd.Props.writer_reader_agree",
    "Vcd.Props.custom_round_trip",
    "Vcd.Props.zero_size_add_corrupts"
   ],
   "note": "For every usable code table as windows of the grammar; read back by the decoder for the default table and for every custom table whose address modes fit the library's limits."
  },
  {
   "property": "C26",
   "status": "proved",
   "theorems": [
    "Vcd.Props.rolling_hash_update",
    "Vcd.Props.rolling_hash_value",
    "Vcd.Props.rolling_hash_rolls"
   ],
   "note": ""
  },
  {
   "property": "C27",
   "status": "proved",
   "theorems": [
    "Vcd.Props.search_finds_true_matches",
    "Vcd.Props.block_comparison_exact"
   ],
   "note": "Source plus its address and target below 2^31 bytes."
  },
  {
   "property": "C28",
   "status": "proved",
   "theorems": [
    "Vcd.Props.engine_reconstructs_target",
    "Vcd.Props.engine_ignores_empty"
   ],
   "note": "Dictionary and chunk below 2^31 bytes together."
  },
  {
   "property": "C29",
   "status": "proved",
   "theorems": [
    "Vcd.Props.encoder_protocol",
    "Vcd.Props.encode_is_header_and_windows"
   ],
   "note": "At most 44 bytes more than the chunk; chunks below 2^31 - 64 bytes."
  },
  {
   "property": "C30",
   "status": "proved",
   "theorems": [
    "Vcd.Props.encoder_protocol",
    "Vcd.Props.encoder_reuse"
   ],
   "note": "Binary formats."
  },
  {
   "property": "C31",
   "status": "proved",
   "theorems": [
    "Vcd.Props.adler_is_definition",
    "Vcd.Props.adler_piecewise",
    "Vcd.Props.adler_no_overflow",
    "Vcd.Props.adler_no_divide",
    "Vcd.Props.adler_combine",
    "Vcd.Props.adler_combine_no_overflow",
    "Vcd.Props.adler_combine_other_start",
    "Vcd.Props.adler_in_range"
   ],
   "note": "adler_combine_other_start shows that adler32_combine, which this library does not use, needs the starting value 1."
  },
  {
   "property": "C32",
   "status": "partial",
   "theorems": [
    "Vcd.Props.json_denotes_target",
    "Vcd.Props.json_document",
    "Vcd.Props.json_unambiguous",
    "Vcd.Props.json_dictionary_refused",
    "Vcd.Props.json_chunks_with_matching"
   ],
   "note": "Proved for one non-empty chunk, or any chunks with target matching off, after any history; chunk by chunk in all cases. False of the code for several chunks with target matching (witness)."
  },
  {
   "property": "C33",
   "status": "partial",
   "theorems": [
    "Vcd.Props.json_document",
    "Vcd.Props.json_empty_target",
    "Vcd.Props.json_run_not_escaped"
   ],
   "note": "Proved for every encode with at least one non-empty chunk, after any history; false of the code for empty targets (witnesses)."
  },
  {
   "property": "C34",
   "status": "proved",
   "theorems": [
    "Vcd.Props.encoder_protocol",
    "Vcd.Props.encode_is_header_and_windows",
    "Vcd.Props.json_protocol",
    "Vcd.Props.json_dictionary_refused"
   ],
   "note": "Binary formats and JSON."
  },
  {
   "property": "C35",
   "status": "proved",
   "theorems": [
    "Vcd.Props.cli_encode_is_library",
    "Vcd.Props.cli_decode_is_library",
    "Vcd.Props.cli_compare_iff",
    "Vcd.Props.cli_round_trip",
    "Vcd.Props.cli_empty_file_never_ends",
    "Vcd.Props.cli_large_limit_ignored"
   ],
   "note": "Binary formats; with I/O errors in C47 to C51."
  },
  {
   "property": "C36",
   "status": "proved",
   "theorems": [
    "Vcd.Props.table_size_power_of_two",
    "Vcd.Props.block_hash_creation"
   ],
   "note": ""
  },
  {
   "property": "C37",
   "status": "proved",
   "theorems": [
    "Vcd.Props.chains_record_added_blocks",
    "Vcd.Props.dictionary_hash_complete",
    "Vcd.Props.add_through_index"
   ],
   "note": ""
  },
  {
   "property": "C38",
   "status": "partial",
   "theorems": [
    "Vcd.Props.set_window_size_exact",
    "Vcd.Props.set_file_size_accepts_all"
   ],
   "note": "The window setter is exact; the file setter accepts every value, contrary to its documentation."
  },
  {
   "property": "C39",
   "status": "partial",
   "theorems": [
    "Vcd.Props.custom_table_used_partial",
    "Vcd.Props.custom_table_transported",
    "Vcd.Props.table_delta_made",
    "Vcd.Props.own_table_prevails",
    "Vcd.Props.custom_round_trip",
    "Vcd.Props.invalid_table_ignored",
    "Vcd.Props.accepts_exactly_library"
   ],
   "note": "Valid tables are used exactly, whatever uses came before, and a table sent as the library's own delta of the default table takes effect; false of the code for invalid ones, which are replaced by the default table (witness)."
  },
  {
   "property": "C40",
   "status": "partial",
   "theorems": [
    "Vcd.Props.nesting_bounded_by_input_partial",
    "Vcd.Props.nesting_unbounded"
   ],
   "note": "False of the code: no bound independent of the input. Proved: at most one nested decoder per seven bytes of input, and this is reached for every depth."
  },
  {
   "property": "C41",
   "status": "proved",
   "theorems": [
    "Vcd.Props.same_as_dictionary_is_one_copy"
   ],
   "note": ""
  },
  {
   "property": "C42",
   "status": "proved",
   "theorems": [
    "Vcd.Props.search_finds_longest",
    "Vcd.Props.search_finds_first"
   ],
   "note": ""
  },
  {
   "property": "C43",
   "status": "proved",
   "theorems": [
    "Vcd.Props.simple_encoder_is_streaming",
    "Vcd.Props.simple_round_trip",
    "Vcd.Props.late_settings_ignored",
    "Vcd.Props.simple_encoder_json",
    "Vcd.Props.simple_encoder_json_refused"
   ],
   "note": "The first three are for the binary formats, the others for JSON. The empty target in the JSON format: finding 12."
  },
  {
   "property": "C44",
   "status": "proved",
   "theorems": [
    "Vcd.Props.whole_windows_are_output"
   ],
   "note": ""
  },
  {
   "property": "C45",
   "status": "proved",
   "theorems": [
    "Vcd.Props.nothing_overlooked",
    "Vcd.Props.dictionary_piece_never_sent",
    "Vcd.Props.short_dictionary_piece_never_sent",
    "Vcd.Props.repeated_piece_never_sent"
   ],
   "note": ""
  },
  {
   "property": "C46",
   "status": "proved",
   "theorems": [
    "Vcd.Props.format_flags_effective",
    "Vcd.Props.encode_is_header_and_windows",
    "Vcd.Props.writer_window",
    "Vcd.Props.cli_encode_is_library"
   ],
   "note": "The binary formats; for --json the documents are those of C33."
  },
  {
   "property": "C47",
   "status": "proved",
   "theorems": [
    "Vcd.Props.only_output_touched",
    "Vcd.Props.nothing_touched_on_refusal",
    "Vcd.Props.decode_in_place_destroys",
    "Vcd.Props.encode_in_place_destroys"
   ],
   "note": "With witnesses for what happens if input and output are the same file."
  },
  {
   "property": "C48",
   "status": "partial",
   "theorems": [
    "Vcd.Props.decode_status_zero_partial",
    "Vcd.Props.encode_status_zero_partial",
    "Vcd.Props.full_disk_unnoticed"
   ],
   "note": "False of the code if the disk is full at fclose (witness), proved that this is the only exception."
  },
  {
   "property": "C49",
   "status": "proved",
   "theorems": [
    "Vcd.Props.interrupted_decode",
    "Vcd.Props.interrupted_encode"
   ],
   "note": "Binary formats."
  },
  {
   "property": "C50",
   "status": "proved",
   "theorems": [
    "Vcd.Props.encode_completes",
    "Vcd.Props.decode_completes",
    "Vcd.Props.command_round_trip"
   ],
   "note": "Binary formats; regular input files are not empty (see C35)."
  },
  {
   "property": "C51",
   "status": "proved",
   "theorems": [
    "Vcd.Props.test_status_zero",
    "Vcd.Props.test_runs_encode",
    "Vcd.Props.test_completes",
    "Vcd.Props.ended_is_final"
   ],
   "note": ""
  },
  {
   "property": "C52",
   "status": "proved",
   "theorems": [
    "Vcd.Props.whole_instructions_are_output"
   ],
   "note": ""
  },
  {
   "property": "C53",
   "status": "proved",
   "theorems": [
    "Vcd.Props.stream_keeps_up"
   ],
   "note": "The decoder is a new one."
  },
  {
   "property": "C54",
   "status": "proved",
   "theorems": [
    "Vcd.Props.resized_once_per_window",
    "Vcd.Props.resized_once_per_size_read",
    "Vcd.Props.operations_append_output",
    "Vcd.Props.encoder_resizes_once",
    "Vcd.Props.resized_twice_for_one_window"
   ],
   "note": "For strings whose capacity does not change when a reserve() is repeated; resized_twice_for_one_window shows that the documented guarantee fails for others."
  },
  {
   "property": "C55",
   "status": "proved",
   "theorems": [
    "Vcd.Props.threads_do_not_interfere",
    "Vcd.Props.every_thread_finishes",
    "Vcd.Props.tables_made_at_most",
    "Vcd.Props.shared_dictionary_round_trip",
    "Vcd.Props.table_leaked_in_race"
   ],
   "note": "Under sequentially consistent memory."
  },
  {
   "property": "C56",
   "status": "proved",
   "theorems": [
    "Vcd.Props.library_encoder_is_instance",
    "Vcd.Props.alike_writers_same_replies",
    "Vcd.Props.recording_is_transparent",
    "Vcd.Props.writer_protocol",
    "Vcd.Props.writer_session_exists",
    "Vcd.Props.statistics_are_true",
    "Vcd.Props.custom_writer_encodes",
    "Vcd.Props.custom_writer_round_trip",
    "Vcd.Props.custom_table_undeclared",
    "Vcd.Props.failed_restart_ignored"
   ],
   "note": "With witnesses for two surprises: a failed StartEncoding does not end an encode, and the header never announces a custom code table."
  },
  {
   "property": "C57",
   "status": "proved",
   "theorems": [
    "Vcd.Props.writer_history",
    "Vcd.Props.history_windows",
    "Vcd.Props.history_decodes",
    "Vcd.Props.checksum_any_time",
    "Vcd.Props.init_restores",
    "Vcd.Props.checksum_sticks",
    "Vcd.Props.init_keeps_instructions"
   ],
   "note": "With witnesses for what Init does not do: it neither forgets a checksum nor discards the instructions of an unfinished window."
  },
  {
   "property": "C58",
   "status": "proved",
   "theorems": [
    "Vcd.Props.target_kept_when_allowed",
    "Vcd.Props.target_kept_is_short",
    "Vcd.Props.no_earlier_target_kept",
    "Vcd.Props.no_earlier_input_kept",
    "Vcd.Props.no_earlier_instruction_kept",
    "Vcd.Props.input_kept_at_most_fed",
    "Vcd.Props.tables_kept_are_bounded",
    "Vcd.Props.header_kept_without_bound",
    "Vcd.Props.sections_kept_for_empty_target",
    "Vcd.Props.overlong_instruction_keeps_all_input"
   ],
   "note": "Sizes of the strings, not their capacities. With witnesses that no setting bounds the input that is kept."
  },
  {
   "property": "C59",
   "status": "proved",
   "theorems": [
    "Vcd.Props.debug_same_or_exits",
    "Vcd.Props.debug_exit_reasons",
    "Vcd.Props.debug_misuse_exits",
    "Vcd.Props.debug_build_agrees",
    "Vcd.Props.debug_plain_file",
    "Vcd.Props.debug_exit_near",
    "Vcd.Props.debug_exit_same",
    "Vcd.Props.debug_exit_init",
    "Vcd.Props.debug_exit_mode",
    "Vcd.Props.debug_exit_here"
   ],
   "note": "With witnesses that a delta can make a debug build exit."
  },
  {
   "property": "C60",
   "status": "proved",
   "theorems": [
    "Vcd.Props.deltas_can_be_joined",
    "Vcd.Props.standard_deltas_can_be_joined",
    "Vcd.Props.deltas_can_be_split",
    "Vcd.Props.deltas_joined_iff",
    "Vcd.Props.sessions_join",
    "Vcd.Props.joined_round_trip",
    "Vcd.Props.target_window_not_alone"
   ],
   "note": "Fed byte by byte in general, in any chunks for standard headers and for what the encoder makes; target_window_not_alone shows that the setting is needed."
  },
  {
   "property": "C61",
   "status": "proved",
   "theorems": [
    "Vcd.Props.encode_chunk_is_linear",
    "Vcd.Props.work_counts_encoder",
    "Vcd.Props.encoding_is_linear",
    "Vcd.Props.hashing_dictionary_is_linear",
    "Vcd.Props.work_counts_engine"
   ],
   "note": "Steps are counted by twins of the encoder's functions (Model/Work, Model/EncodeWork), which the work_counts theorems show to be the same functions; what std::string does to grow is not counted."
  },
  {
   "property": "C62",
   "status": "proved",
   "theorems": [
    "Vcd.Props.small_edits_small_delta",
    "Vcd.Props.small_edits_few_instructions",
    "Vcd.Props.one_edit_small_delta",
    "Vcd.Props.copies_are_maximal"
   ],
   "note": "Under the stated conditions on repetitions and on the hash table."
  },
  {
   "property": "C63",
   "status": "proved",
   "theorems": [
    "Vcd.Props.vcdiff_decoder_history",
    "Vcd.Props.vcdiff_decoder_reuse_partial",
    "Vcd.Props.vcdiff_decode_result",
    "Vcd.Props.simple_objects_round_trip",
    "Vcd.Props.decode_changes_only_target",
    "Vcd.Props.decode_in_place_empties"
   ],
   "note": "With the exceptions named in the statement; faults as in C04 and C05."
  },
  {
   "property": "C64",
   "status": "proved",
   "theorems": [
    "Vcd.Props.longer_dictionary_same_target",
    "Vcd.Props.standard_other_dictionary_accepted",
    "Vcd.Props.other_dictionary",
    "Vcd.Props.wrong_dictionary_noticed",
    "Vcd.Props.wrong_dictionary_unnoticed"
   ],
   "note": "Sizes below 2^31."
  },
  {
   "property": "C65",
   "status": "proved",
   "theorems": [
    "Vcd.Props.writer_window_shortest",
    "Vcd.Props.encoder_windows_shortest",
    "Vcd.Props.window_has_instructions",
    "Vcd.Props.same_cache_costs_a_byte"
   ],
   "note": "Sizes below 2^31. same_cache_costs_a_byte shows why the condition on pairs is needed for the writer (finding 28)."
  },
  {
   "property": "C66",
   "status": "proved",
   "theorems": [
    "Vcd.Props.work_counts_decoder",
    "Vcd.Props.chunk_work_is_linear",
    "Vcd.Props.decode_work_is_linear",
    "Vcd.Props.chunks_work",
    "Vcd.Props.chunk_work_with_tables",
    "Vcd.Props.decode_work_with_tables",
    "Vcd.Props.chunks_work_with_tables",
    "Vcd.Props.bytewise_work_is_quadratic"
   ],
   "note": "Steps are counted by twins of the decoder's functions (Model/DecodeWork), which work_counts_decoder shows to be the same functions; what std::string does to grow is not counted. bytewise_work_is_quadratic is the witness for finding 29."
  },
  {
   "property": "C67",
   "status": "proved",
   "theorems": [
    "Vcd.Props.encoder_damage_noticed",
    "Vcd.Props.damaged_checksum_refused",
    "Vcd.Props.damaged_literal_refused",
    "Vcd.Props.run_damage_unnoticed"
   ],
   "note": "run_damage_unnoticed shows why the instructions are restricted."
  },
  {
   "property": "C68",
   "status": "proved",
   "theorems": [
    "Vcd.Props.builds_agree",
    "Vcd.Props.debug_build_exits_iff",
    "Vcd.Props.debug_build_exits_iff_json",
    "Vcd.Props.release_build_same",
    "Vcd.Props.second_init_refused",
    "Vcd.Props.uninitialised_dictionary_loses_data",
    "Vcd.Props.huge_dictionary_exits",
    "Vcd.Props.huge_dictionary_unreadable",
    "Vcd.Props.release_build_protocol",
    "Vcd.Props.release_build_never_crashes",
    "Vcd.Props.source_offset_overflows"
   ],
   "note": "With witnesses for findings 18 and 30."
  },
  {
   "property": "C69",
   "status": "proved",
   "theorems": [
    "Vcd.Props.json_command",
    "Vcd.Props.json_command_refused",
    "Vcd.Props.json_test_fails"
   ],
   "note": "The empty target: finding 12. Written in parts with target matches: finding 12."
  },
  {
   "property": "C70",
   "status": "proved",
   "theorems": [
    "Vcd.Props.command_ends",
    "Vcd.Props.exit_status",
    "Vcd.Props.encode_no_fault",
    "Vcd.Props.test_command_ends"
   ],
   "note": "Counterexamples for the cases excluded: cli_empty_file_never_ends, test_full_disk_never_ends. Undefined operations of the decoder: C04."
  },
  {
   "property": "C71",
   "status": "proved",
   "theorems": [
    "Vcd.Props.size_t_width_does_not_matter",
    "Vcd.Props.builds_with_32_and_64_bits_agree",
    "Vcd.Props.faults_with_32_bits",
    "Vcd.Props.overflow_check_exact"
   ],
   "note": "Faults that do not come from sizes: C04, C05. Lowering the limit inside a decode: finding 8."
  },
  {
   "property": "C72",
   "status": "proved",
   "theorems": [
    "Vcd.Props.decode_output_limited",
    "Vcd.Props.decode_command_faults",
    "Vcd.Props.only_output_touched",
    "Vcd.Props.command_ends"
   ],
   "note": "The two exceptions are reached: near_overflow_reachable, custom_cache_out_of_bounds."
  },
  {
   "property": "C73",
   "status": "proved",
   "theorems": [
    "Vcd.Props.buffers_within_limits",
    "Vcd.Props.output_reserved_within_limits"
   ],
   "note": "The limits are reached: examples in Props/Requests."
  },
  {
   "property": "C74",
   "status": "proved",
   "theorems": [
    "Vcd.Props.pointers_do_not_matter",
    "Vcd.Props.no_dangling_pointer",
    "Vcd.Props.objects_between_calls"
   ],
   "note": "Faults that are not about memory lifetimes: C04, C05."
  },
  {
   "property": "C75",
   "status": "proved",
   "theorems": [
    "Vcd.Props.encoders_do_not_disturb_each_other",
    "Vcd.Props.stopped_only_by_faults",
    "Vcd.Props.only_dictionary_kept_alive",
    "Vcd.Props.encoder_leaks_nothing"
   ],
   "note": "What each encoder answers alone: C34, C68. Encoders with a writer of the caller: C56, without lifetimes."
  },
  {
   "property": "C76",
   "status": "proved",
   "theorems": [
    "Vcd.Props.block_hash_memory",
    "Vcd.Props.memory_between_calls",
    "Vcd.Props.target_hash_memory",
    "Vcd.Props.memory_while_encoding"
   ],
   "note": "The strings of the JSON writer during a chunk are not bounded here. Counted is what is stored, not the capacity of strings."
  },
  {
   "property": "C77",
   "status": "proved",
   "theorems": [
    "Vcd.Props.same_on_every_machine",
    "Vcd.Props.machines_agree",
    "Vcd.Props.delta_travels"
   ],
   "note": "The amount passed to ReserveAdditionalBytes is not modelled for other machines, nor whether tables that large can be allocated on them."
  },
  {
   "property": "C78",
   "status": "proved",
   "theorems": [
    "Vcd.Props.decoder_exception_prefix",
    "Vcd.Props.interrupted_decode_outputs_prefix",
    "Vcd.Props.restart_after_exception",
    "Vcd.Props.restart_from_any_state",
    "Vcd.Props.encoder_exception_prefix",
    "Vcd.Props.interrupted_encode_is_prefix"
   ],
   "note": "Exceptions elsewhere than in the output string (decoder) or the strings and allocations of the encoder: only restart_from_any_state. That memory leaks on an exception in EncodeInternal (a raw pointer) is not modelled."
  },
  {
   "property": "C79",
   "status": "partial",
   "theorems": [
    "Vcd.Props.vcdiff_decoder_recovers_partial",
    "Vcd.Props.start_exception_harmless",
    "Vcd.Props.early_exception_harmless",
    "Vcd.Props.json_restart_after_exception",
    "Vcd.Props.vcdiff_decoder_after_exception_false",
    "Vcd.Props.retried_chunk_is_duplicated",
    "Vcd.Props.restarted_encode_is_broken"
   ],
   "note": "False of the code: vcdiff_decoder_after_exception_false, retried_chunk_is_duplicated (for all dictionaries and chunks without target matching and checksums) and restarted_encode_is_broken. The other theorems are the part that holds."
  },
  {
   "property": "C80",
   "status": "proved",
   "theorems": [
    "Vcd.Props.decoder_reports",
    "Vcd.Props.encoder_reports",
    "Vcd.Props.custom_encoder_reports",
    "Vcd.Props.simple_encoder_reports"
   ],
   "note": "The texts of the messages are not modelled, only which VCD_ERROR, VCD_WARNING or VCD_DFATAL statement writes them. A VCDiffDecoder is a sequence of calls of a streaming decoder."
  },
  {
   "property": "C81",
   "status": "partial",
   "theorems": [
    "Vcd.Props.decoder_silent_partial",
    "Vcd.Props.binary_encoder_silent_partial",
    "Vcd.Props.simple_encoder_silent",
    "Vcd.Props.table_reported",
    "Vcd.Props.json_encoder_never_silent",
    "Vcd.Props.json_errors_without_cause",
    "Vcd.Props.ignored_table_reported"
   ],
   "note": "False of the code: json_encoder_never_silent (every JSON encode) and ignored_table_reported. The other theorems are the part that holds."
  },
  {
   "property": "C82",
   "status": "proved",
   "theorems": [
    "Vcd.Props.command_reports",
    "Vcd.Props.file_errors_truthful",
    "Vcd.Props.successful_decode_silent",
    "Vcd.Props.successful_encode_silent",
    "Vcd.Props.successful_test_silent",
    "Vcd.Props.json_encode_never_silent"
   ],
   "note": "With the messages of the library in C80 and C81. The texts, the statistics and the usage printed by gflags are not modelled."
  },
  {
   "property": "C83",
   "status": "partial",
   "theorems": [
    "Vcd.Props.decode_resumed_partial",
    "Vcd.Props.next_call_makes_up_partial",
    "Vcd.Props.not_resumed_without_target",
    "Vcd.Props.repeated_without_target",
    "Vcd.Props.repeated_chunk_is_duplicated"
   ],
   "note": "False of the code after SetAllowVcdTarget(false); proved for the default, with any number of exceptions."
  },
  {
   "property": "C84",
   "status": "proved",
   "theorems": [
    "Vcd.Props.repetition_is_one_copy",
    "Vcd.Props.long_repetition_is_one_copy",
    "Vcd.Props.repetitions_give_short_deltas",
    "Vcd.Props.dictionary_can_be_in_the_way"
   ],
   "note": "The last theorem shows that the hypothesis about the dictionary is needed."
  },
  {
   "property": "C85",
   "status": "proved",
   "theorems": [
    "Vcd.Props.encode_statistics",
    "Vcd.Props.decode_statistics",
    "Vcd.Props.test_statistics",
    "Vcd.Props.no_statistics_of_failures",
    "Vcd.Props.statistics_of_lost_output"
   ],
   "note": "The last theorem shows that the hypothesis about space is needed."
  },
  {
   "property": "C86",
   "status": "proved",
   "theorems": [
    "Vcd.Props.encoder_output_to_class",
    "Vcd.Props.decoder_output_to_class",
    "Vcd.Props.simple_encoder_output_to_class",
    "Vcd.Props.simple_decoder_output_to_class",
    "Vcd.Props.output_string_meets",
    "Vcd.Props.size_is_needed"
   ],
   "note": "The last theorem is about a size() that does not grow."
  },
  {
   "property": "C87",
   "status": "proved",
   "theorems": [
    "Vcd.Props.limits_only_refuse",
    "Vcd.Props.only_current_limits_matter",
    "Vcd.Props.changed_file_limit_respected",
    "Vcd.Props.accepted_with_largest_limits"
   ],
   "note": "lowered_limit_ignored (C06) shows that the exception for lowered limits is needed."
  },
  {
   "property": "C88",
   "status": "proved",
   "theorems": [
    "Vcd.Props.disallowing_target_only_refuses",
    "Vcd.Props.accepted_when_target_allowed",
    "Vcd.Props.refused_only_for_target",
    "Vcd.Props.standard_refused_only_for_target"
   ],
   "note": ""
  },
  {
   "property": "C89",
   "status": "proved",
   "theorems": [
    "Vcd.Props.standard_decoded_elsewhere",
    "Vcd.Props.decoders_never_disagree",
    "Vcd.Props.accepted_elsewhere_accepted",
    "Vcd.Props.accepted_elsewhere_follows_grammar",
    "Vcd.Props.empty_add_refused"
   ],
   "note": "empty_add_refused is the witness that accepted_elsewhere_accepted needs the picky decoder"
  },
  {
   "property": "C90",
   "status": "proved",
   "theorems": [
    "Vcd.Props.extended_decoded_elsewhere",
    "Vcd.Props.extended_decoders_never_disagree",
    "Vcd.Props.extended_accepted_elsewhere_accepted",
    "Vcd.Props.extended_accepted_elsewhere_follows_grammar",
    "Vcd.Props.library_reads_another_target"
   ],
   "note": "library_reads_another_target is the delta that means two things; it is why the second and third theorem need the picky decoder."
  },
  {
   "property": "C91",
   "status": "proved",
   "theorems": [
    "Vcd.Props.common_deltas_decoded_by_both",
    "Vcd.Props.picky_decoder_exact",
    "Vcd.Props.encoder_keeps_to_common",
    "Vcd.Props.undefined_bit_tolerated"
   ],
   "note": "undefined_bit_tolerated is a witness that this library accepts more."
  },
  {
   "property": "C92",
   "status": "proved",
   "theorems": [
    "Vcd.Props.window_indicator_bits_ignored",
    "Vcd.Props.checksum_bit_ignored",
    "Vcd.Props.delta_indicator_bits_ignored",
    "Vcd.Props.header_indicator_bits_ignored",
    "Vcd.Props.standard_window_bits_ignored",
    "Vcd.Props.standard_delta_bits_ignored"
   ],
   "note": ""
  },
  {
   "property": "C93",
   "status": "proved",
   "theorems": [
    "Vcd.Props.both_segments_refused",
    "Vcd.Props.foreign_segment_refused",
    "Vcd.Props.large_window_refused",
    "Vcd.Props.large_file_refused",
    "Vcd.Props.compressed_sections_refused"
   ],
   "note": ""
  }
 ]
}