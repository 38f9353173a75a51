{
 "claims": [
  {
   "property": "C01",
   "status": "proved",
   "theorems": [
    "Cantools.C01_encode_bit_exact",
    "Cantools.C01_raw_unique",
    "Cantools.C01_payload_unique"
   ],
   "note": "For messages with distinct signal names, default signal order and factory-made conversions. Fails for sort_signals=None, see C10_unsorted_signals_overflow."
  },
  {
   "property": "C02",
   "status": "proved",
   "theorems": [
    "Cantools.C02_unused_bits",
    "Cantools.C02_padding_keeps_signals"
   ],
   "note": ""
  },
  {
   "property": "C03",
   "status": "proved",
   "theorems": [
    "Cantools.C03_round_trip_general",
    "Cantools.C03_round_trip",
    "Cantools.C03_raw_round_trip",
    "Cantools.C03_selector_between_integers"
   ],
   "note": "Holds for selectors that are unscaled integers with distinct names and integral values, and for all raw round trips; C03_selector_between_integers is a counterexample for a fractional selector value."
  },
  {
   "property": "C04",
   "status": "proved",
   "theorems": [
    "Cantools.C04_decode_reads_bits",
    "Cantools.C04_selectors_unique",
    "Cantools.C04_raw_unique",
    "Cantools.C04_decode_depends_on_own_bits"
   ],
   "note": "Float signals must have no value table."
  },
  {
   "property": "C05",
   "status": "proved",
   "theorems": [
    "Cantools.C05_strict_check_iff",
    "Cantools.C05_unreachable_signal_not_checked",
    "Cantools.C05_duplicate_names_unsound",
    "Cantools.C05_negative_frame_id"
   ],
   "note": "For distinct names; signals that can never be present are not checked (counterexample), duplicate names make the check unsound (counterexample)."
  },
  {
   "property": "C06",
   "status": "proved",
   "theorems": [
    "Cantools.C06_encode_needs_branch",
    "Cantools.C06_decode_error",
    "Cantools.C04_decode_reads_bits",
    "Cantools.C01_encode_bit_exact"
   ],
   "note": ""
  },
  {
   "property": "C07",
   "status": "proved",
   "theorems": [
    "Cantools.C07_construction_terminates",
    "Cantools.C07_duplicate_names_diverge"
   ],
   "note": "Distinct names are necessary (counterexample)."
  },
  {
   "property": "C08",
   "status": "proved",
   "theorems": [
    "Cantools.C08_gather_signals"
   ],
   "note": ""
  },
  {
   "property": "C09",
   "status": "proved",
   "theorems": [
    "Cantools.C09_assert_signals_encodable",
    "Cantools.C09_assert_errors",
    "Cantools.C09_unknown_name_not_EncodeError"
   ],
   "note": "The acceptance condition is exact; the exception for unknown names is KeyError, not EncodeError."
  },
  {
   "property": "C10",
   "status": "proved",
   "theorems": [
    "Cantools.C10_encode_succeeds_iff",
    "Cantools.C10_encode_length",
    "Cantools.C10_strict_encode_succeeds_iff",
    "Cantools.C10_unsorted_signals_overflow"
   ],
   "note": "Fails for sort_signals=None (counterexample)."
  },
  {
   "property": "C11",
   "status": "proved",
   "theorems": [
    "Cantools.C11_truncated",
    "Cantools.C11_truncated_agrees"
   ],
   "note": ""
  },
  {
   "property": "C12",
   "status": "proved",
   "theorems": [
    "Cantools.C12_excess",
    "Cantools.C12_wrong_size"
   ],
   "note": ""
  },
  {
   "property": "C13",
   "status": "proved",
   "theorems": [
    "Cantools.C13_raw_phys_raw",
    "Cantools.C13_classes_agree",
    "Cantools.C13_raw_phys_raw_rounded",
    "Cantools.C13_double_range"
   ],
   "note": "Exact arithmetic for all conversions; for rounded arithmetic (relative error u per operation, covering IEEE doubles without overflow) under an explicit bound on raw value and offset/scale."
  },
  {
   "property": "C14",
   "status": "proved",
   "theorems": [
    "Cantools.C14_nearest"
   ],
   "note": "Exact arithmetic."
  },
  {
   "property": "C15",
   "status": "proved",
   "theorems": [
    "Cantools.C15_named_values",
    "Cantools.C15_duplicate_names",
    "Cantools.C15_float_named"
   ],
   "note": "Proved for tables with distinct names; the other two theorems show that the claim fails with a repeated name and that float signals with a value table are shown differently with and without scaling."
  },
  {
   "property": "C16",
   "status": "partial",
   "theorems": [
    "Cantools.C16_prune_several",
    "Cantools.C16_prune_single",
    "Cantools.C16_idempotent",
    "Cantools.C16_distinct",
    "Cantools.C16_table",
    "Cantools.C16_decode_shows_pruned",
    "Cantools.C16_encode_old_names",
    "Cantools.C16_pruned_name_rejected",
    "Cantools.C16_pruned_message_not_reencodable",
    "Cantools.C16_pruned_selector_breaks_decoding",
    "Cantools.C16_single_not_idempotent"
   ],
   "note": "What is removed is characterised exactly (names without newline). The claim that pruned names can be encoded is false of the code: the table used for encoding is not updated, shown by the last theorems."
  },
  {
   "property": "C17",
   "status": "partial",
   "theorems": [
    "Cantools.C17_container_wire",
    "Cantools.C17_container_round_trip_partial",
    "Cantools.C17_strict_iff",
    "Cantools.C17_little_endian_header_fails",
    "Cantools.C17_encode_exceeds_container"
   ],
   "note": "Encoding is characterised exactly. The round trip holds for big endian headers and frames not longer than the container; the last two theorems show that it fails otherwise (decoding always reads headers big endian; encode does not check the total length)."
  },
  {
   "property": "C18",
   "status": "proved",
   "theorems": [
    "Cantools.C18_unpack_iff",
    "Cantools.C18_unpack_error",
    "Cantools.C18_decode_container",
    "Cantools.C18_lookup"
   ],
   "note": "For containers whose contained messages have distinct header ids and names, and contained messages that passed the layout check."
  },
  {
   "property": "C19",
   "status": "proved",
   "theorems": [
    "Cantools.C19_get_by_frame_id",
    "Cantools.C19_key_error_iff"
   ],
   "note": "For messages with frame ids of at most 29 bits, after any refresh that did not raise (see C21_lookups: every addition ends with one)."
  },
  {
   "property": "C20",
   "status": "partial",
   "theorems": [
    "Cantools.C20_by_name",
    "Cantools.C20_by_frame_id_partial",
    "Cantools.C20_default_mask",
    "Cantools.C20_outside_mask",
    "Cantools.C20_mask_ignored"
   ],
   "note": "Names: proved. Frame ids: holds exactly for ids inside the mask; for other ids encode_message/decode_message raise KeyError although get_message_by_frame_id finds a message (last theorem), because they do not apply the mask."
  },
  {
   "property": "C21",
   "status": "proved",
   "theorems": [
    "Cantools.C21_messages",
    "Cantools.C21_last_addition",
    "Cantools.C21_lookups",
    "Cantools.C21_get_by_name",
    "Cantools.C19_get_by_frame_id",
    "Cantools.C21_failed_refresh",
    "Cantools.C21_stale_without_refresh",
    "Cantools.C21_get_first"
   ],
   "note": "Any history of additions, modifications and refreshes. Parsing itself is not part of this model."
  },
  {
   "property": "C22",
   "status": "proved",
   "theorems": [
    "Cantools.C22_frame_id_pack",
    "Cantools.C22_frame_id_pack_error",
    "Cantools.C22_frame_id_unpack",
    "Cantools.C22_frame_id_unpack_error",
    "Cantools.C22_unpack_pack",
    "Cantools.C22_pack_unpack",
    "Cantools.C22_pgn_pack",
    "Cantools.C22_pgn_pack_error",
    "Cantools.C22_pgn_unpack",
    "Cantools.C22_pgn_unpack_error",
    "Cantools.C22_pgn_unpack_pack",
    "Cantools.C22_pgn_pack_unpack",
    "Cantools.C22_pgn_from_frame_id",
    "Cantools.C22_pgn_from_frame_id_error"
   ],
   "note": "pgn_pack rejects PDU1 numbers with a destination address, so pgn_pack(*pgn_unpack(n)) gives n exactly for the other 18 bit numbers."
  },
  {
   "property": "C23",
   "status": "partial",
   "theorems": [
    "Cantools.C23_profile2_apply_check",
    "Cantools.C23_profile2_writes",
    "Cantools.C23_profile2_applicable",
    "Cantools.C23_profile2_burst_partial",
    "Cantools.C23_profile2_crc_byte",
    "Cantools.C23_profile2_counter",
    "Cantools.C23_profile5_apply_check",
    "Cantools.C23_profile5_writes",
    "Cantools.C23_profile5_burst",
    "Cantools.C23_profile5_crc_bytes",
    "Cantools.C23_profile5_applicable"
   ],
   "note": "Profile 5 in full. Profile 2: a burst that changes the sequence counter of a message with 16 data ids also changes the data id used and need not be detected; the burst theorem excludes it (C23_profile2_counter has a witness)."
  },
  {
   "property": "C24",
   "status": "proved",
   "theorems": [
    "Cantools.C24_apply_iff",
    "Cantools.C24_verify_iff",
    "Cantools.C24_verify_total",
    "Cantools.C24_applied_verifies",
    "Cantools.C24_apply_idempotent",
    "Cantools.C24_payload_untouched",
    "Cantools.C24_replay_rejected",
    "Cantools.C24_not_secured"
   ],
   "note": "For an arbitrary authenticator function."
  },
  {
   "property": "C25",
   "status": "partial",
   "theorems": [
    "Cantools.C25_encode_length",
    "Cantools.C25_encode_succeeds_iff",
    "Cantools.C25_encode_bit_exact",
    "Cantools.C25_decode_reads_bits",
    "Cantools.C25_round_trip",
    "Cantools.C25_raw_round_trip",
    "Cantools.C25_too_short",
    "Cantools.C25_cdd_field_iff",
    "Cantools.C25_cdd_length",
    "Cantools.C25_cdd_layout_partial",
    "Cantools.C25_cdd_overlap",
    "Cantools.C25_descending_order_fails"
   ],
   "note": "Round trip for every layout without overlaps whose little endian fields are in ascending order (the last theorem shows that this is needed). The CDD layout claim holds exactly for fields that are little endian, within a byte, or made of whole bytes (C25_cdd_field_iff); C25_cdd_overlap shows that it is false of the code otherwise."
  },
  {
   "property": "C26",
   "status": "proved",
   "theorems": [
    "Cantools.C26_frame_id_round_trip",
    "Cantools.C26_distinct",
    "Cantools.C26_number_round_trip",
    "Cantools.C26_invalid_id"
   ],
   "note": "Valid frame ids of both formats; the last theorem shows that an id that is not valid for its format need not survive."
  },
  {
   "property": "C27",
   "status": "proved",
   "theorems": [
    "Cantools.C27_ranges",
    "Cantools.C27_multiplexing_round_trip",
    "Cantools.C27_long_selector_fails",
    "Cantools.C27_empty_ids"
   ],
   "note": "Every list of ids, and the whole multiplexing of a message (selectors, nested selectors, ids) for every database. Ids are integers here; the grammar of the file only reads nonnegative ones. C27_long_selector_fails: together with abbreviated selector names the reference to the selector is lost."
  },
  {
   "property": "C28",
   "status": "partial",
   "theorems": [
    "Cantools.C28_abbreviation_partial",
    "Cantools.C28_order_independent",
    "Cantools.C28_terminates",
    "Cantools.C28_name_round_trip",
    "Cantools.C28_repeated_name",
    "Cantools.C28_too_many_names"
   ],
   "note": "Full claim for up to 10000 distinct names; C28_too_many_names shows that short names get longer than 32 characters beyond that, C28_repeated_name that repeated names are not kept."
  },
  {
   "property": "C29",
   "status": "partial",
   "theorems": [
    "Cantools.C29_comment_iff",
    "Cantools.C29_plain_iff_partial",
    "Cantools.C29_quoted_unit",
    "Cantools.C29_trailing_backslash"
   ],
   "note": "Exact characterisation of the strings that survive: comments that do not end with a backslash; units, names of values, attribute values and bus comments that also contain no quotation mark. The claim for every string is false of the code (witnesses given)."
  },
  {
   "property": "C30",
   "status": "partial",
   "theorems": [
    "Cantools.C30_generates",
    "Cantools.C30_pack",
    "Cantools.C30_pack_is_encode_partial",
    "Cantools.C30_unpack",
    "Cantools.C30_unpack_is_decode_partial",
    "Cantools.C30_round_trip",
    "Cantools.C30_half_float_undefined",
    "Cantools.C30_long_signal_undefined",
    "Cantools.C30_long_signed_not_generated",
    "Cantools.C30_unknown_selector"
   ],
   "note": "Every layout, byte order, signedness, multiplexing and struct, for integers of up to 64 bits and 32/64 bit floats whose multiplexer ids fit the selector's C type. The claim is false for 16 bit floats and longer integers (undefined behaviour, last theorems); a selector value without branch makes Python raise while the C code succeeds."
  },
  {
   "property": "C31",
   "status": "partial",
   "theorems": [
    "Cantools.C31_characterization",
    "Cantools.C31_partial",
    "Cantools.C31_physical_partial",
    "Cantools.C31_unrepresentable_bound",
    "Cantools.C31_negative_maximum",
    "Cantools.C31_negative_scale",
    "Cantools.C31_rounded_bound"
   ],
   "note": "Exact characterisation of what the check accepts, hence the claim whenever the declared bounds are representable; it is false of the code for bounds beyond the representable range and for a negative maximum of an unsigned member (witnesses given)."
  },
  {
   "property": "C32",
   "status": "proved",
   "theorems": [
    "Cantools.C32_distinct",
    "Cantools.C32_one_per_value",
    "Cantools.C32_name",
    "Cantools.C32_identifiers"
   ],
   "note": "Every value table. Upper and lower case are ASCII in the model."
  },
  {
   "property": "C33",
   "status": "partial",
   "theorems": [
    "Cantools.C33_found",
    "Cantools.C33_found_discard",
    "Cantools.C33_timeout",
    "Cantools.C33_waiting",
    "Cantools.C33_no_exception",
    "Cantools.C33_receive",
    "Cantools.C33_flush",
    "Cantools.C33_kept_in_order",
    "Cantools.C33_nothing_lost",
    "Cantools.C33_key_error_loses_messages"
   ],
   "note": "Every course of events during a call and every history. The claim is false when the filter raises: expecting a signal that a received message of that name does not have (multiplexed) raises KeyError and loses messages (last theorem)."
  },
  {
   "property": "C34",
   "status": "partial",
   "theorems": [
    "Cantools.C34_stop_partial",
    "Cantools.C34_stopped_partial",
    "Cantools.C34_one_task_partial",
    "Cantools.C34_disable_partial",
    "Cantools.C34_start_partial",
    "Cantools.C34_careful",
    "Cantools.C34_double_start_leaks",
    "Cantools.C34_double_enable_leaks",
    "Cantools.C34_enable_sends_for_dut"
   ],
   "note": "Holds for histories in which no message is started while it is already being sent; false of the code otherwise (start() twice, or enable() of an enabled message, leaks a task)."
  },
  {
   "property": "C35",
   "status": "partial",
   "theorems": [
    "Cantools.C35_set_partial",
    "Cantools.C35_update_partial",
    "Cantools.C35_unknown_signal",
    "Cantools.C35_history",
    "Cantools.C35_send_partial",
    "Cantools.C35_send_last_success",
    "Cantools.C35_failed_assignment_stale_frame",
    "Cantools.C35_failed_assignment_sticks"
   ],
   "note": "Holds as long as no assignment failed; in general the frame sent is the encoding of the values at the last successful call. After a failing assignment the claim is false of the code (witness)."
  },
  {
   "property": "C36",
   "status": "partial",
   "theorems": [
    "Cantools.C36_line",
    "Cantools.C36_file",
    "Cantools.C36_iterlines",
    "Cantools.C36_prefix",
    "Cantools.C36_empty_data_fails",
    "Cantools.LogExample.C36_iteration_aborts",
    "Cantools.LogExample.C36_truncated_line_aborts",
    "Cantools.LogExample.C36_remote_length_skipped",
    "Cantools.LogExample.C36_mixed_formats"
   ],
   "note": "All ten formats with the regular expressions and python's backtracking: every well-formed line (all ids, data, channels, stamps, blanks) is recognised as its own format and parsed to its frame; whole files, prefixes. Skips exactly the other lines: false for lines that make a conversion fail (V2.x lines without data, bytes cut in half), which end the iteration with an exception."
  },
  {
   "property": "C37",
   "status": "partial",
   "theorems": [
    "Cantools.C37_transparent_partial",
    "Cantools.C37_same_partial",
    "Cantools.C37_custom_sort_shares_entry",
    "Cantools.C37_unpicklable_fails",
    "Cantools.C37_same_mtime_stale"
   ],
   "note": "Every history of file changes (also during a call) and loads without user-defined sort function, assuming that modifications change the modification time. False of the code with user-defined sort functions: they all share the cache entry None (witness), or the load fails because the function cannot be pickled."
  },
  {
   "property": "C38",
   "status": "proved",
   "theorems": [
    "Cantools.C38_first_accepting",
    "Cantools.C38_all_fail",
    "Cantools.C38_given_format",
    "Cantools.C38_unknown_format"
   ],
   "note": "For arbitrary behaviour of the parsers."
  },
  {
   "property": "C39",
   "status": "proved",
   "theorems": [
    "Cantools.C39_signals_sorted",
    "Cantools.C39_encode_order_independent",
    "Cantools.C39_decode_order_independent",
    "Cantools.C39_encode_ids_independent",
    "Cantools.C39_decode_ids_independent"
   ],
   "note": ""
  },
  {
   "property": "C40",
   "status": "partial",
   "theorems": [
    "Cantools.C40_tree_mirrors",
    "Cantools.C40_tree_lists_reachable",
    "Cantools.C40_inverted_partial",
    "Cantools.C40_inverted_keys",
    "Cantools.C40_selectors_missing"
   ],
   "note": "Every multiplexing tree, depth and order of signals. The tree part holds in full; the inverted tree is exact for all signals except selectors that select something, which the code leaves out of the map (C40_selectors_missing)."
  },
  {
   "property": "C41",
   "status": "partial",
   "theorems": [
    "Cantools.C41_terminates",
    "Cantools.C41_reflexive",
    "Cantools.C41_reports_differences",
    "Cantools.C41_similar_of_no_difference",
    "Cantools.C41_similar_iff_partial",
    "Cantools.C41_reused_id_hides_difference",
    "Cantools.C41_not_symmetric",
    "Cantools.C41_shadowed_message"
   ],
   "note": "All object graphs, with cycles. Reflexivity and soundness hold in full; that every difference is detected is proved when different objects have different id()s. It is false for attributes computed when read (such as the receivers of a message), whose id()s may be reused (witness)."
  },
  {
   "property": "C42",
   "status": "partial",
   "theorems": [
    "Cantools.C42_file_partial",
    "Cantools.C42_file_frames_partial",
    "Cantools.KcdExample.C42_carriage_return",
    "Cantools.KcdExample.C42_control_character",
    "Cantools.C42_signal_survives",
    "Cantools.C42_database_survives_partial",
    "Cantools.C42_frames_survive_partial",
    "Cantools.C42_auto_length",
    "Cantools.C42_offset",
    "Cantools.KcdExample.C42_several_ids_lost",
    "Cantools.KcdExample.C42_nested_multiplexer_rejected",
    "Cantools.KcdExample.C42_unused_bit_pattern_lost",
    "Cantools.KcdExample.C42_unknown_receiver"
   ],
   "note": "All databases, including the XML text of the file (as xml.etree writes and reads it). Position, length, byte order, scale, offset and limits survive for every signal; whole databases with one level of multiplexing and one id per signal come back the same (a float is read as unsigned) and treat all frames the same. Signals with several multiplexer ids, nested multiplexers and the pattern of unused bits do not survive, a carriage return in a comment becomes a line feed, and a file with a control character in a name cannot be loaded (witnesses)."
  },
  {
   "property": "C43",
   "status": "partial",
   "theorems": [
    "Cantools.C43_each_frame_once",
    "Cantools.C43_counters",
    "Cantools.C43_bounded_partial",
    "Cantools.C43_sorted",
    "Cantools.C43_listed",
    "Cantools.C43_window",
    "Cantools.C43_display_partial",
    "Cantools.C43_no_failure_partial",
    "Cantools.C43_escape",
    "Cantools.C43_prompt",
    "Cantools.C43_undecodable",
    "Cantools.C43_container",
    "Cantools.MonitorExample.C43_errors_exceed_received",
    "Cantools.MonitorExample.C43_error_outlives_filter",
    "Cantools.MonitorExample.C43_no_signals_not_displayed",
    "Cantools.MonitorExample.C43_reset_hides_signals",
    "Cantools.MonitorExample.C43_reset_forgets_nothing",
    "Cantools.MonitorExample.C43_filter_hides_error",
    "Cantools.MonitorExample.C43_same_name_fails"
   ],
   "note": "All histories of frames, ticks, resizes and keys. Counters on the screen, sortedness, the window, and the filter as it was typed hold for all of them. discarded + errors <= received holds until the first reset only (the reset keeps the error counter; witness). The contents of the screen are proved for traffic that can be decoded and has no containers, and not between a reset and the next change of the filter (witnesses for the other cases)."
  },
  {
   "property": "C44",
   "status": "proved",
   "theorems": [
    "Cantools.C44_layout",
    "Cantools.C44_layout_without_names",
    "Cantools.C44_read_back",
    "Cantools.DumpExample.C44_crossed_out_but_valid"
   ],
   "note": "The whole text of layout_string, as rows and columns. For the names: the last character of each name has to be visible (rstrip)."
  },
  {
   "property": "C45",
   "status": "proved",
   "theorems": [
    "Cantools.C45_round_trip",
    "Cantools.C45_frames_survive",
    "Cantools.C45_limits_not_kept",
    "Cantools.C45_empty_not_kept",
    "Cantools.C45_half_float_fails",
    "Cantools.C45_unreadable",
    "Cantools.C45_fd_not_kept",
    "Cantools.C45_zero_cycle_time_not_kept",
    "Cantools.C45_message_dropped",
    "Cantools.C45_selector_name_not_kept",
    "Cantools.C45_sender_mistaken",
    "Cantools.C45_stale_frame_format",
    "Cantools.C45_buses_not_kept",
    "Cantools.C45_same_id_shares_comment"
   ],
   "note": "Text to text: tokenizer, grammar, writer and reader. For databases that satisfy WritableDatabase (and KeptNames, if names are shortened); the witnesses show what is lost otherwise. The text of floating point numbers is a parameter with the laws FloatLaws."
  },
  {
   "property": "C46",
   "status": "partial",
   "theorems": [
    "Cantools.C46_all_signals",
    "Cantools.C46_initial_value",
    "Cantools.C46_within_limits_partial",
    "Cantools.C46_created_iff",
    "Cantools.C46_created_partial",
    "Cantools.C46_not_created",
    "Cantools.C46_zero_initial_ignored"
   ],
   "note": "Creation is characterised exactly (C46_created_iff) and proved for messages without initial values whose limits make sense and whose start values can be sent. It is false in general: negative maximum without minimum, offset, selector with only a value table, initial value 0 (witnesses)."
  },
  {
   "property": "C47",
   "status": "partial",
   "theorems": [
    "Cantools.C47_known_extension_partial",
    "Cantools.C47_given_format",
    "Cantools.C47_extension",
    "Cantools.C47_unknown_extension",
    "Cantools.C47_encoding"
   ],
   "note": "Known extensions: proved. For unknown extensions the documented probing does not happen: ValueError is raised whatever the file contains."
  },
  {
   "property": "C48",
   "status": "proved",
   "theorems": [
    "Cantools.C48_round_trip",
    "Cantools.C48_frames_survive",
    "Cantools.C48_bit_numbers",
    "Cantools.C48_shared_definition",
    "Cantools.C48_half_float_not_kept",
    "Cantools.C48_unreadable",
    "Cantools.C48_unwritable",
    "Cantools.C48_range_not_kept",
    "Cantools.C48_merged",
    "Cantools.C48_selector_not_kept",
    "Cantools.C48_defaults_not_kept",
    "Cantools.C48_truncated_not_kept"
   ],
   "note": "Text to text: tokenizer, grammar, writer and reader of format version 6.0. For databases that satisfy SymDatabase; the witnesses show what is lost otherwise, and that truncated frames are decoded differently. The text of floating point numbers is a parameter with the laws FloatLaws."
  },
  {
   "property": "C49",
   "status": "partial",
   "theorems": [
    "Cantools.C49_output_partial",
    "Cantools.C49_every_line_partial",
    "Cantools.C49_error_ends",
    "Cantools.C49_truncated_aborts",
    "Cantools.C49_extended_ignored",
    "Cantools.C49_printed_twice",
    "Cantools.C49_aborts"
   ],
   "note": "For databases whose messages passed the strict check and have distinct signal names; the command ends early exactly if the log reader does (C36). It is false in general: a signal that is there several times (SYM files) is printed several times, the frame format is ignored, a PCAN frame without data ends the command, and so does with --no-strict a truncated frame of a message with two signals of the same name (witnesses)."
  },
  {
   "property": "C50",
   "status": "partial",
   "theorems": [
    "Cantools.C50_frame_partial",
    "Cantools.C50_wrong_alternative",
    "Cantools.C50_lost_signals"
   ],
   "note": "Trees of PDUs after references have been followed, with the trailer of secured frames; any nesting. For distinct signal names and selectors whose names of values are distinct. It is false in general: nested selectors at the same depth get the same name, so signals of an alternative that was not chosen are decoded, and a nested selector in place of the copy of the outer one is removed (witnesses)."
  },
  {
   "property": "C51",
   "status": "partial",
   "theorems": [
    "Cantools.C51_numbers_partial",
    "Cantools.C51_scales_partial",
    "Cantools.C51_no_scaling",
    "Cantools.C51_linear",
    "Cantools.C51_awkward_numbers",
    "Cantools.C51_decreasing",
    "Cantools.C51_segments",
    "Cantools.C51_named_interval",
    "Cantools.C51_half_open"
   ],
   "note": "Names of single integers and at most one increasing linear function. It is false in general (witnesses): a decreasing function exchanges the limits, so that every value is rejected; with several linear functions the last one is used everywhere; names of intervals are lost or an error, a name with one limit is given to that limit only; octal numbers with a sign are read as decimal, 00.5 is an error."
  },
  {
   "property": "C52",
   "status": "partial",
   "theorems": [
    "Cantools.C52_load_partial",
    "Cantools.C52_decode_partial",
    "Cantools.C52_by_name",
    "Cantools.C52_by_identifier",
    "Cantools.C52_add_replaces",
    "Cantools.C52_signed_fails",
    "Cantools.C52_field_fails",
    "Cantools.C52_range_fails",
    "Cantools.C52_order_fails",
    "Cantools.C52_unknown_reference"
   ],
   "note": "Every document whose data types are unsigned single numbers with names for single values and whose parts are in the order data objects, unions, references; decoding for distinct names and objects that a start bit can address (C25). It is false in general (witnesses): the encoding sgn and the number of elements are ignored (the latter becomes the limits of the value), names of ranges are dropped, references before data objects are moved behind them. Adding a file replaces the DIDs that were there (C52_add_replaces)."
  },
  {
   "property": "C53",
   "status": "partial",
   "theorems": [
    "Cantools.C53_accepted",
    "Cantools.C53_follow",
    "Cantools.C53_children_partial",
    "Cantools.C53_unique_partial",
    "Cantools.C53_references_fails"
   ],
   "note": "Every document that follows the schema where names, packages and reference bases are concerned (Regular). Acceptance and references hold in full. Locations: for documents without references where the location does not allow them; otherwise it is false, the mark & has no effect (witness)."
  },
  {
   "property": "C54",
   "status": "partial",
   "theorems": [
    "Cantools.C54_signal_partial",
    "Cantools.C54_encoding_needed",
    "Cantools.C54_messages_partial",
    "Cantools.C54_errors_partial",
    "Cantools.C54_value",
    "Cantools.C54_decode_partial",
    "Cantools.C54_decode_plain_partial",
    "Cantools.C54_offset_ignored",
    "Cantools.C54_encoding_fails",
    "Cantools.C54_system_name_unused"
   ],
   "note": "Every AUTOSAR 4 document that meets Describes: any packages, clusters, references, nested PDUs. The trailers of secured frames and the end-to-end protection of signal groups are included. Containers are treated in C61; AUTOSAR 3 is missing. It is false in general (witnesses): the place of a PDU in its frame is ignored, one's complement and sign-magnitude numbers are read as two's complement, the name of the system signal is not used; and where C50, C51 and C53 are."
  },
  {
   "property": "C55",
   "status": "partial",
   "theorems": [
    "Cantools.C55_pattern",
    "Cantools.C55_arguments",
    "Cantools.C55_picture",
    "Cantools.C55_success",
    "Cantools.C55_complete_name_partial",
    "Cantools.C55_line_bounds_partial",
    "Cantools.C55_half_byte_partial"
   ],
   "note": "Every sound database with plain names, every option and every log of one candump format (blank lines and lines of the decode command included). Reading of time stamps is a parameter. It is false in general (witnesses): a complete name after a pattern does not draw the signal again although the code says so, --start and --stop fail with line numbers, half a byte in a line ends the command."
  },
  {
   "property": "C56",
   "status": "proved",
   "theorems": [
    "Cantools.C56_unpack",
    "Cantools.C56_pack",
    "Cantools.C56_overflow",
    "Cantools.C56_exact",
    "Cantools.C56_message",
    "Cantools.C56_scaling",
    "Cantools.C56_limits",
    "Cantools.C56_rejected",
    "Cantools.C56_decimal",
    "Cantools.IeeeExample.C56_long_raw_lost",
    "Cantools.IeeeExample.C56_large_offset_lost",
    "Cantools.IeeeExample.C56_rejected_within_limits"
   ],
   "note": "Every finite number; NaN, infinities and the sign of zero are left out. Beyond the ranges of the statement it is false (witnesses): raw values of more than 53 bits are not kept, nor those that are small compared to the offset; with scale 0.1 and maximum 1717986918.6 the decoded value of the 35 bit raw value 17179869186 is rejected when it is encoded again."
  },
  {
   "property": "C57",
   "status": "proved",
   "theorems": [
    "Cantools.C57_round_trip",
    "Cantools.C57_truncated",
    "Cantools.C57_exact",
    "Cantools.C57_python",
    "Cantools.C57_phys_range",
    "Cantools.C57_phys_safe",
    "Cantools.CConvertExample.C57_one_lost",
    "Cantools.CConvertExample.C57_tie",
    "Cantools.CConvertExample.C57_limit_refused",
    "Cantools.CConvertExample.C57_no_limits_undefined"
   ],
   "note": "IEEE 754 without excess precision. Witnesses: without the option for rounding (the default) 43 steps of 0.1 come back as 42; 1.25 with scale 0.5 is 3 in C and 2 in python; 3 steps of 0.1 are refused by the maximum 0.3; without limits the check accepts values whose encoding is undefined."
  },
  {
   "property": "C58",
   "status": "partial",
   "theorems": [
    "Cantools.C58_declared",
    "Cantools.C58_defined_partial",
    "Cantools.C58_functions_distinct_partial",
    "Cantools.C58_declared_distinct_partial",
    "Cantools.C58_macros",
    "Cantools.C58_macros_distinct_partial",
    "Cantools.C58_structs",
    "Cantools.C58_structs_used",
    "Cantools.C58_init_partial",
    "Cantools.CHeaderExample.C58_conflicting_types",
    "Cantools.CHeaderExample.C58_init_undefined",
    "Cantools.CHeaderExample.C58_undeclared",
    "Cantools.CHeaderExample.C58_functions_clash",
    "Cantools.CHeaderExample.C58_signals_clash",
    "Cantools.CHeaderExample.C58_macros_clash",
    "Cantools.CHeaderExample.C58_init_wrong"
   ],
   "note": "What is declared holds in full. The rest is false in general (witnesses): with --use-float a signal of type double is declared with float and defined with double; the init function of a message without data is declared but not defined; with a node the functions of messages without data are defined but not declared; names clash if one continues another after an underscore or if they are equal in snake case; a raw initial value whose physical value is 0 is not set (0 degrees become -40 degrees)."
  },
  {
   "property": "C59",
   "status": "partial",
   "theorems": [
    "Cantools.C59_dbc_file",
    "Cantools.C59_sym_file",
    "Cantools.C59_convert_to_dbc",
    "Cantools.C59_convert_to_sym",
    "Cantools.C59_convert_frames",
    "Cantools.C59_other_formats",
    "Cantools.C59_load_errors",
    "Cantools.C59_cp1252",
    "Cantools.C59_cp1252_bytes",
    "Cantools.C59_utf8",
    "Cantools.C59_kcd_file",
    "Cantools.C59_convert_to_kcd",
    "Cantools.C59_sym_to_kcd",
    "Cantools.C59_kcd_load_errors",
    "Cantools.C59_characters_not_kept",
    "Cantools.C59_senders_not_kept",
    "Cantools.C59_encodings_differ"
   ],
   "note": "DBC and SYM files, every encoding that keeps its characters (cp1252 and UTF-8 are shown to). Conversion to KCD for databases with what a KCD file has fields for and encodings for all of Unicode; it always fails for SYM files with messages (KeyError, C59_sym_to_kcd). KCD files as input, the cache and the argument that prunes choices are missing. Witnesses: characters the encoding does not have become question marks, carriage returns become ends of lines, a conversion to SYM loses senders."
  },
  {
   "property": "C60",
   "status": "partial",
   "theorems": [
    "Cantools.C60_field",
    "Cantools.C60_apply_decode",
    "Cantools.C60_secured_partial",
    "Cantools.C60_freshness_needed"
   ],
   "note": "For any message with a trailer (C60_apply_decode) in full; for messages of system descriptions within the limits of C50 and C54 and with complete settings. A description without the number of transmitted bits of the freshness value cannot be loaded if it has an authenticator (C60_freshness_needed)."
  },
  {
   "property": "C61",
   "status": "partial",
   "theorems": [
    "Cantools.C61_messages_partial",
    "Cantools.C61_errors",
    "Cantools.C61_part_partial",
    "Cantools.C61_decode_partial",
    "Cantools.C61_round_trip_partial",
    "Cantools.C61_little_endian_fails"
   ],
   "note": "Containers with short headers, not secured as a whole and not in other containers; contained messages within the limits of C50. It is false for documents that specify little endian headers (witness): such headers are written, but all headers are read as big endian ones."
  },
  {
   "property": "C62",
   "status": "partial",
   "theorems": [
    "Cantools.C62_messages",
    "Cantools.C62_nodes_partial",
    "Cantools.C62_without_pdu",
    "Cantools.C62_parts_partial",
    "Cantools.C62_ecus",
    "Cantools.C62_known",
    "Cantools.C62_receivers",
    "Cantools.C62_alternative_fails"
   ],
   "note": "Every AUTOSAR 4 document with EcusRegular (absolute reference bases, controllers inside their ECU). Senders hold in full. Receivers: those of the PDU of the message or a part of it; that they receive the PDU of the signal is false (witness): an ECU that receives one alternative of a multiplexed PDU is a receiver of the signals of all alternatives."
  },
  {
   "property": "C63",
   "status": "partial",
   "theorems": [
    "Cantools.C63_messages_partial",
    "Cantools.C63_rejects_partial",
    "Cantools.C63_module_needed",
    "Cantools.C63_decode_partial",
    "Cantools.C63_signed64_fails",
    "Cantools.C63_groups_fail",
    "Cantools.C63_fd_fails",
    "Cantools.C63_package_fails",
    "Cantools.C63_nested_fails"
   ],
   "note": "Modules in top level packages, and messages that are Understood (PDU in the package of CanIf, no CAN FD with 29 bit identifiers, no signal groups, no SINT64); each of these restrictions is necessary (witnesses)."
  },
  {
   "property": "C64",
   "status": "partial",
   "theorems": [
    "Cantools.C64_determines_partial",
    "Cantools.C64_all_partial",
    "Cantools.C64_frames_partial",
    "Cantools.C64_succeeds",
    "Cantools.C64_names",
    "Cantools.C64_items",
    "Cantools.C64_all_items",
    "Cantools.C64_buses",
    "Cantools.C64_nodes",
    "Cantools.C64_bus_determines_partial",
    "Cantools.Listing.Example.C64_comment_fails",
    "Cantools.Listing.Example.C64_same_name_fails",
    "Cantools.Listing.Example.C64_header_fails",
    "Cantools.Listing.Example.C64_selector_fails",
    "Cantools.Listing.Example.C64_scale_fails"
   ],
   "note": "Selection and success hold in full. What the details tell: for messages with texts of one line and the other conditions of FineMessage; initial and invalid values and the properties specific to ARXML files are printed but not claimed. Witnesses: a comment of several lines can look like other properties; a scaling factor within 1e-10 of one, the frame id of a message with a header id and the first of two messages with the same name are not printed; a signal whose selector is missing ends the command with a KeyError."
  },
  {
   "property": "C65",
   "status": "partial",
   "theorems": [
    "Cantools.C65_round_trip",
    "Cantools.C65_without_relations",
    "Cantools.C65_rest_unchanged",
    "Cantools.C65_no_kind_unreadable",
    "Cantools.C65_special_characters_unreadable",
    "Cantools.C65_name_mistaken",
    "Cantools.C65_empty_not_kept",
    "Cantools.C65_node_name_not_restored"
   ],
   "note": "The round trip holds for every database that meets WritableRelations (identifiers as names, definitions with a kind, no empty dictionaries) and, with shortened names, KeptRelations. It is false beyond (witnesses): a definition without a kind is read, but written so that the file cannot be read; names with special characters make the file unreadable; a name that looks like the short name of a signal becomes the long name; long names of nodes are not restored. The other two theorems hold in full."
  },
  {
   "property": "C66",
   "status": "partial",
   "theorems": [
    "Cantools.C66_loads",
    "Cantools.C66_rest",
    "Cantools.C66_messages",
    "Cantools.C66_others",
    "Cantools.C66_parts",
    "Cantools.C66_known",
    "Cantools.C66_profile5",
    "Cantools.C66_length_fails"
   ],
   "note": "For regular files (Regular, NoStray, EcusRegular). Witness C66_length_fails: if a PDU inside a multiplexed PDU is protected, the protected length is that of the whole message, not of the protected PDU."
  },
  {
   "property": "C67",
   "status": "partial",
   "theorems": [
    "Cantools.C67_created_iff",
    "Cantools.C67_unknown_names",
    "Cantools.C67_messages",
    "Cantools.C67_unknown_message",
    "Cantools.C67_start",
    "Cantools.C67_enabled",
    "Cantools.C67_received",
    "Cantools.C67_talk_partial",
    "Cantools.C67_talk_raw_partial",
    "Cantools.C67_shared_id_fails",
    "Cantools.C67_container_fails"
   ],
   "note": "Talking is proved for messages whose frame id no other message of the database has: it is false otherwise (C67_shared_id_fails), because frame ids are looked up in the whole database, not only in the bus of the tester. No tester can be created for a bus with a container (C67_container_fails). Values arrive as those shown for the number that was sent (as in C03; exactly for raw values); multiplexer selectors are integers."
  },
  {
   "property": "C68",
   "status": "partial",
   "theorems": [
    "Cantools.C68_dumps",
    "Cantools.C68_pages",
    "Cantools.C68_tells",
    "Cantools.C68_named",
    "Cantools.C68_unknown",
    "Cantools.C68_layout",
    "Cantools.C68_j1939",
    "Cantools.C68_again",
    "Cantools.C68_dids"
   ],
   "note": "Proved about the list of printed lines; comments in the signal tree (--with-comments) and the wrapping of names wider than the console are not modelled. Of the layout and signal tree the printed lines are shown to be determined; what they say about the signals is C44 and C64."
  },
  {
   "property": "C69",
   "status": "proved",
   "theorems": [
    "Cantools.C69_columns",
    "Cantools.C69_computes",
    "Cantools.C69_change_rejected",
    "Cantools.C69_empty_secret_fails",
    "Cantools.C69_exchange_accepted",
    "Cantools.C69_secret_without_effect"
   ],
   "note": "Other changes need not be rejected: two bytes five bytes apart can be exchanged in every secured frame, and a secret of one byte has no effect on ten bytes of data (last theorems). An empty secret is accepted by the constructor but fails later. The code says that it is not secure."
  },
  {
   "property": "C70",
   "status": "partial",
   "theorems": [
    "Cantools.C70_never_traps",
    "Cantools.C70_calls",
    "Cantools.C70_node_fails"
   ],
   "note": "Messages within the limits of C30 (integers of up to 64 bits, 32 and 64 bit floats, multiplexer ids that fit the selector). The part about calls is false with the option for a node (last theorem): the fuzzer calls functions that are not generated then."
  },
  {
   "property": "C71",
   "status": "partial",
   "theorems": [
    "Cantools.C71_helpers_defined",
    "Cantools.C71_helpers_used",
    "Cantools.C71_variables",
    "Cantools.C71_members",
    "Cantools.C71_pack_code",
    "Cantools.C71_unpack_code",
    "Cantools.C71_parameter_fails",
    "Cantools.C71_keyword_fails",
    "Cantools.C71_node_unused"
   ],
   "note": "A signed or floating point signal called Size becomes a variable with the name of a parameter, so the code does not compile (C71_parameter_fails); with the option for a node, helpers of functions that are left out are defined too (C71_node_unused). A signal whose name is a keyword of C makes the code invalid too (C71_keyword_fails)."
  },
  {
   "property": "C72",
   "status": "partial",
   "theorems": [
    "Cantools.C72_last_assigned",
    "Cantools.C72_message",
    "Cantools.C72_history",
    "Cantools.C72_formats",
    "Cantools.C72_initial_stale",
    "Cantools.C72_selector_choices_fails"
   ],
   "note": "For messages, assignments to is_float are left out: the formats are made by the constructor, so refresh is needed. The initial value keeps its old scaling (C72_initial_stale), and a value table assigned to a multiplexer does not add branches until refresh (C72_selector_choices_fails)."
  },
  {
   "property": "C73",
   "status": "proved",
   "theorems": [
    "Cantools.C73_files",
    "Cantools.C73_told",
    "Cantools.C73_path",
    "Cantools.C73_error",
    "Cantools.C73_unwritable",
    "Cantools.C73_others",
    "Cantools.C73_name",
    "Cantools.C73_digit_fails",
    "Cantools.C73_given_fails"
   ],
   "note": "The last two theorems are about names that the command accepts although the generated code cannot be compiled: a file name that begins with a digit, and a given name that is no identifier."
  }
 ]
}