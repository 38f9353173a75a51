{"id": "C01", "title": "Encoded frame is bit-exact", "statement": "If Message.encode() returns a payload for a message with a valid layout, then every signal selected by the given multiplexer values has each bit of its raw (two's complement) value at exactly the payload bit the sawtooth numbering of its start/length/byte_order documents.", "quantifier": "every message with distinct signal names, default signal order and factory-made conversions that the strict check accepts, every multiplexing tree, every value dictionary for which encode() succeeds, every bit of every selected signal", "why_tests_cant": "layouts x values are unbounded; the padding/offset arithmetic of the format generator and the OR-combination of multiplexer branches is exercised by tests at a handful of layouts only", "anchors": ["src/cantools/database/can/message.py:Message.encode", "src/cantools/database/can/message.py:Message._encode", "src/cantools/database/utils.py:encode_data", "src/cantools/database/utils.py:create_encode_decode_formats", "src/cantools/database/utils.py:start_bit"]}
{"id": "C02", "title": "Unused bits are filled as documented", "statement": "Payload bits that belong to no selected signal are 0 when padding=False and equal the message's unused_bit_pattern (per byte) when padding=True; padding never alters a signal bit.", "quantifier": "every valid layout, pattern byte, selected multiplexer branches and values", "why_tests_cant": "the padding mask is the intersection of masks generated separately for both byte orders and every selected branch", "anchors": ["src/cantools/database/can/message.py:Message.encode", "src/cantools/database/utils.py:create_encode_decode_formats"]}
{"id": "C03", "title": "Encode/decode round trip", "statement": "Decoding an encoded payload returns exactly the selected signals with exactly the raw values that were encoded (scaling=False), and with scaling the values those raw values denote.", "quantifier": "every valid layout with distinct signal names and every encodable value dictionary; multiplexing trees whose selectors are unscaled integers with unambiguous value tables, given as integers or names (fails for a fractional selector value: encode() rounds it for the frame but truncates it for the branch)", "why_tests_cant": "a round trip over all layouts and values cannot be enumerated", "anchors": ["src/cantools/database/can/message.py:Message.encode", "src/cantools/database/can/message.py:Message.decode", "src/cantools/database/utils.py:encode_data", "src/cantools/database/utils.py:decode_data"]}
{"id": "C04", "title": "A decoded value depends only on the signal's own bits", "statement": "The value decode() returns for a signal is the number written in the payload bits the layout assigns to it (two's complement when signed) and two payloads agreeing on these bits and on the multiplexer selectors give the same value, whatever all other bits are.", "quantifier": "every valid layout, every payload of the message's length", "why_tests_cant": "2^(8*length) payloads", "anchors": ["src/cantools/database/can/message.py:Message.decode", "src/cantools/database/can/message.py:Message._decode", "src/cantools/database/utils.py:decode_data"]}
{"id": "C05", "title": "Strict layout check is sound and complete", "statement": "Constructing a Message with strict=True succeeds exactly if every signal that can be present in some frame lies completely inside the payload, no two signals that can be present in the same frame share a payload bit, and the frame id fits its format; it raises Error otherwise.", "quantifier": "every set of signals with distinct names and arbitrary multiplexing tree, every message length (with a repeated name, or for signals no frame can contain, the check says nothing: counterexamples)", "why_tests_cant": "overlap and fit must be decided for every combination of byte orders, positions and multiplexer branches", "anchors": ["src/cantools/database/can/message.py:Message.refresh", "src/cantools/database/can/message.py:Message._check_signal", "src/cantools/database/can/message.py:Message._check_mux", "src/cantools/database/can/message.py:Message._check_signal_tree"]}
{"id": "C06", "title": "Multiplexer selection", "statement": "encode() and decode() touch exactly the signals whose chain of selectors has the values requested: the result contains a multiplexed signal iff every selector above it takes one of its multiplexer ids; a selector value with no branch raises EncodeError/DecodeError and never silently yields a partial frame.", "quantifier": "every multiplexing tree and every selector value", "why_tests_cant": "depth and fan-out of multiplexing trees are unbounded", "anchors": ["src/cantools/database/can/message.py:Message._create_codec", "src/cantools/database/can/message.py:Message._encode", "src/cantools/database/can/message.py:Message._decode", "src/cantools/database/can/message.py:Message._get_mux_number"]}
{"id": "C07", "title": "Building the codec terminates", "statement": "Message construction terminates: for signals with distinct names the recursive codec construction never nests deeper than the number of signals.", "quantifier": "every list of signals with arbitrary multiplexer references, including dangling and cyclic ones", "why_tests_cant": "non-termination cannot be observed by a finite test", "anchors": ["src/cantools/database/can/message.py:Message._create_codec"]}
{"id": "C08", "title": "gather_signals returns exactly what encode needs", "statement": "gather_signals(d) returns, with the values of d, exactly the signals required to encode; encode(gather_signals(d), strict=False) equals encode(d, strict=False); a missing required signal raises EncodeError.", "quantifier": "every message and every superset dictionary", "why_tests_cant": "all dictionaries and trees", "anchors": ["src/cantools/database/can/message.py:Message.gather_signals", "src/cantools/database/can/message.py:Message.assert_signals_encodable"]}
{"id": "C09", "title": "Strict encoding accepts exactly the valid inputs", "statement": "assert_signals_encodable() accepts a dictionary iff all required signals are present, no other signal is present, every string value is a known choice and every numeric value is within [minimum, maximum] (tolerance |scale|*1e-6) or names a value-table entry.", "quantifier": "every message, dictionary and flag combination", "why_tests_cant": "all value/range combinations", "anchors": ["src/cantools/database/can/message.py:Message.assert_signals_encodable", "src/cantools/database/can/message.py:Message._assert_signal_values_valid"]}
{"id": "C10", "title": "Encoded length", "statement": "A successful encode() of an ordinary message returns exactly length bytes; for valid layouts and raw values in range of their signals encode never fails with an overflow, and a raw value outside the range of its signal is never silently truncated into the frame.", "quantifier": "every message accepted by the strict check with distinct signal names and default signal order, every dictionary (with sort_signals=None a valid message can fail: counterexample)", "why_tests_cant": "all values and layouts", "anchors": ["src/cantools/database/can/message.py:Message.encode", "src/cantools/database/utils.py:encode_data"]}
{"id": "C11", "title": "Truncated frames", "statement": "With allow_truncated=True a frame shorter than the message decodes to exactly those selected signals all of whose bits were received, each with the value it has in any completion of the frame.", "quantifier": "every valid layout, every frame length, every payload", "why_tests_cant": "every cut position against every layout and byte order", "anchors": ["src/cantools/database/utils.py:decode_data", "src/cantools/database/can/message.py:Message._decode"]}
{"id": "C12", "title": "Wrong-size and excess frames", "statement": "decode() of a longer frame with allow_excess=True equals decode() of its first length bytes; with the respective flag off, a frame of the wrong size raises DecodeError and nothing else is returned.", "quantifier": "every message, payload and flag combination", "why_tests_cant": "all lengths and flags", "anchors": ["src/cantools/database/utils.py:decode_data"]}
{"id": "C13", "title": "raw -> physical -> raw is the identity", "statement": "For every conversion built by the factory with non-zero scale, converting an integer raw value to its physical value and back yields the same raw value; the specialised conversion classes agree with the general linear formula.", "quantifier": "every scale != 0, offset and raw value (exact arithmetic; with a stated bound also under IEEE-style rounding)", "why_tests_cant": "infinite domain; special cases (integer fast path, identity) each must agree with the general law", "anchors": ["src/cantools/database/conversion.py:BaseConversion.factory", "src/cantools/database/conversion.py:LinearIntegerConversion.numeric_scaled_to_raw", "src/cantools/database/conversion.py:LinearConversion.numeric_scaled_to_raw", "src/cantools/database/conversion.py:IdentityConversion.numeric_scaled_to_raw"]}
{"id": "C14", "title": "physical -> raw picks the nearest representable value", "statement": "The raw value chosen for a physical value is the nearest one: the physical value re-read differs by at most |scale|/2, exact ties go to the even raw value.", "quantifier": "every scale != 0, offset, physical value", "why_tests_cant": "infinite domain", "anchors": ["src/cantools/database/conversion.py:LinearConversion.numeric_scaled_to_raw", "src/cantools/database/conversion.py:LinearIntegerConversion.numeric_scaled_to_raw"]}
{"id": "C15", "title": "Named values round trip", "statement": "For a value table with distinct names, decoding raw value r to its name and encoding the name gives r; raw values without an entry decode to numbers; unknown names are rejected.", "quantifier": "every value table and raw value", "why_tests_cant": "all tables", "anchors": ["src/cantools/database/conversion.py:NamedSignalConversion.raw_to_scaled", "src/cantools/database/conversion.py:NamedSignalConversion.choice_to_number", "src/cantools/database/utils.py:_encode_signal_values"]}
{"id": "C16", "title": "Pruning choice names", "statement": "prune_choices=True only strips a common prefix: each value keeps its own name's suffix, distinct names stay distinct, all new names are valid identifiers when anything was stripped, and a decoded (pruned) name can be encoded again.", "quantifier": "every value table whose names contain no newline", "why_tests_cant": "all tables of names", "anchors": ["src/cantools/database/utils.py:prune_signal_choices", "src/cantools/database/utils.py:prune_database_choices", "src/cantools/database/conversion.py:NamedSignalConversion.choice_to_number"]}
{"id": "C17", "title": "Container messages round trip", "statement": "unpack_container(encode(list)) yields the same list of contained messages (or header ids) and payloads in the same order.", "quantifier": "every list of contained messages, payload lengths 0..255, header ids below 2^24, both header byte orders", "why_tests_cant": "unbounded lists and payloads", "anchors": ["src/cantools/database/can/message.py:Message._encode_container", "src/cantools/database/can/message.py:Message.unpack_container", "src/cantools/database/can/message.py:Message.decode_container"]}
{"id": "C18", "title": "Container unpacking is safe on arbitrary bytes", "statement": "unpack_container() terminates on every byte string, either raising DecodeError or returning entries whose concatenation with their headers reproduces a prefix of the input, leaving fewer than four bytes over; decode_container never raises for contained payloads that fail to decode but hands out their raw bytes.", "quantifier": "every byte string and container definition", "why_tests_cant": "all byte strings", "anchors": ["src/cantools/database/can/message.py:Message.unpack_container", "src/cantools/database/can/message.py:Message.decode_container"]}
{"id": "C19", "title": "Frame id lookup honours the mask", "statement": "get_message_by_frame_id(id) returns the most recently added message of the same frame format whose id agrees with id on all mask bits, and raises KeyError iff none exists.", "quantifier": "every sequence of added messages, every mask, every queried id, both frame formats", "why_tests_cant": "all histories and masks", "anchors": ["src/cantools/database/can/database.py:Database.get_message_by_frame_id", "src/cantools/database/can/database.py:Database._add_message"]}
{"id": "C20", "title": "encode_message/decode_message address the same message as the lookup", "statement": "Database.encode_message and decode_message called with a frame id operate on the same message get_message_by_frame_id returns; called with a name, on the message get_message_by_name returns.", "quantifier": "every database, mask and id", "why_tests_cant": "all masks and ids", "anchors": ["src/cantools/database/can/database.py:Database.encode_message", "src/cantools/database/can/database.py:Database.decode_message", "src/cantools/database/can/database.py:Database.get_message_by_frame_id"]}
{"id": "C21", "title": "Database histories", "statement": "After any sequence of add_*_string calls: messages is the concatenation of all added message lists in order, name and frame id lookups return the last matching one, nodes/buses/version are those of the last addition.", "quantifier": "every history of additions", "why_tests_cant": "unbounded histories", "anchors": ["src/cantools/database/can/database.py:Database.add_dbc_string", "src/cantools/database/can/database.py:Database.refresh", "src/cantools/database/can/database.py:Database._add_message"]}
{"id": "C22", "title": "J1939 identifiers round trip", "statement": "frame_id_unpack inverts frame_id_pack and pgn_unpack inverts pgn_pack on in-range fields and vice versa on all 29 bit identifiers and all 18 bit PGNs (PDU1 numbers must have no destination, which pgn_pack rejects); pgn_from_frame_id gives the PGN of the frame with the destination cleared for PDU1; out-of-range fields are rejected with Error.", "quantifier": "all field combinations, including out-of-range and negative ones", "why_tests_cant": "2^29 identifiers and unbounded out-of-range inputs", "anchors": ["src/cantools/j1939.py:frame_id_pack", "src/cantools/j1939.py:frame_id_unpack", "src/cantools/j1939.py:pgn_pack", "src/cantools/j1939.py:pgn_unpack", "src/cantools/j1939.py:pgn_from_frame_id"]}
{"id": "C23", "title": "AUTOSAR end-to-end protection", "statement": "A payload protected by apply_profile2_crc / apply_profile5_crc passes check_profile2_crc / check_profile5_crc; protection only writes the CRC bytes; flipping any non-empty set of bits confined to a burst no longer than the CRC in the protected area makes the check fail.", "quantifier": "every message with E2E profile 2 or 5, every payload, every burst error", "why_tests_cant": "all payloads and error patterns", "anchors": ["src/cantools/autosar/end_to_end.py:apply_profile2_crc", "src/cantools/autosar/end_to_end.py:check_profile2_crc", "src/cantools/autosar/end_to_end.py:compute_profile2_crc", "src/cantools/autosar/end_to_end.py:apply_profile5_crc", "src/cantools/autosar/end_to_end.py:check_profile5_crc", "src/cantools/autosar/end_to_end.py:compute_profile5_crc"]}
{"id": "C24", "title": "SecOC authentication", "statement": "A frame produced by apply_authenticator verifies with the same key and freshness; applying is idempotent and leaves the payload bytes untouched; verify accepts a frame iff its trailer equals the freshness/authenticator truncation recomputed from its payload.", "quantifier": "every payload, freshness value, truncation lengths and authenticator function", "why_tests_cant": "all payloads and authenticator functions", "anchors": ["src/cantools/autosar/secoc.py:apply_authenticator", "src/cantools/autosar/secoc.py:verify_authenticator", "src/cantools/autosar/secoc.py:compute_authenticator"]}
{"id": "C25", "title": "Diagnostic identifiers round trip", "statement": "Did.decode(Did.encode(values)) returns the values; Did.encode returns exactly length bytes; a CDD layout built from consecutive fields never overlaps and covers ceil(bits/8) bytes.", "quantifier": "every DID layout and value dictionary", "why_tests_cant": "all layouts and values", "anchors": ["src/cantools/database/diagnostics/did.py:Did.encode", "src/cantools/database/diagnostics/did.py:Did.decode", "src/cantools/database/utils.py:cdd_offset_to_dbc_start_bit", "src/cantools/database/diagnostics/formats/cdd.py:_load_did_element"]}
{"id": "C26", "title": "DBC frame ids survive dump and load", "statement": "The frame id and frame format of a message are recovered from the number written to the DBC file; two different (id, format) pairs never share a number.", "quantifier": "all valid frame ids of both formats", "why_tests_cant": "2^29+2^11 identifiers", "anchors": ["src/cantools/database/can/formats/dbc.py:get_dbc_frame_id", "src/cantools/database/can/formats/dbc.py:_load_messages"]}
{"id": "C27", "title": "DBC extended multiplexing survives dump and load", "statement": "The SG_MUL_VAL_ ranges written for a signal expand, when loaded, to the same set of multiplexer ids.", "quantifier": "every list of multiplexer ids", "why_tests_cant": "all id lists", "anchors": ["src/cantools/database/can/formats/dbc.py:_create_mux_ranges", "src/cantools/database/can/formats/dbc.py:_dump_signal_mux_values", "src/cantools/database/can/formats/dbc.py:_load_signal_multiplexer_values"]}
{"id": "C28", "title": "Long names are abbreviated consistently", "statement": "Names of at most 32 characters are kept; longer ones get distinct names of at most 32 characters that clash with no kept name; the result does not depend on the order in which names are given.", "quantifier": "every list of names", "why_tests_cant": "all name sets", "anchors": ["src/cantools/database/can/formats/dbc.py:LongNamesConverter", "src/cantools/database/can/formats/dbc.py:make_message_names_unique", "src/cantools/database/can/formats/dbc.py:make_signal_names_unique", "src/cantools/database/can/formats/dbc.py:make_node_names_unique"]}
{"id": "C29", "title": "DBC comments survive dump and load", "statement": "A comment, choice or attribute string written to a DBC file is read back unchanged, whatever characters it contains.", "quantifier": "every string", "why_tests_cant": "all strings", "anchors": ["src/cantools/database/can/formats/dbc.py:_dump_comments", "src/cantools/database/can/formats/dbc.py:_load_comments", "src/cantools/database/can/formats/dbc.py:Parser.tokenize"]}
{"id": "C30", "title": "Generated C packs and unpacks like Python", "statement": "The generated C pack function writes, for every raw struct value, the same payload bytes as Message.encode(scaling=False), and the unpack function returns the raw values Message.decode(scaling=False) returns.", "quantifier": "every signal position, length, byte order and signedness, every struct value and payload", "why_tests_cant": "all layouts times all values", "anchors": ["src/cantools/database/can/c_source.py:CodeGenSignal.segments", "src/cantools/database/can/c_source.py:_format_pack_code_signal", "src/cantools/database/can/c_source.py:_format_unpack_code_signal"]}
{"id": "C31", "title": "Generated C range checks", "statement": "The generated is_in_range function accepts a value of the C type iff it is representable in the signal and lies within the declared minimum and maximum (converted to raw).", "quantifier": "every signal length, signedness, scale, offset, minimum, maximum and every value of the C type", "why_tests_cant": "all bounds and values", "anchors": ["src/cantools/database/can/c_source.py:_generate_is_in_range", "src/cantools/database/can/c_source.py:CodeGenSignal.minimum_ctype_value", "src/cantools/database/can/c_source.py:CodeGenSignal.maximum_can_raw_value"]}
{"id": "C32", "title": "Generated C choice names are unique", "statement": "The choice defines generated for a signal have pairwise distinct names, one for each value of the table.", "quantifier": "every value table", "why_tests_cant": "all value tables and name clashes", "anchors": ["src/cantools/database/can/c_source.py:CodeGenSignal.unique_choices"]}
{"id": "C33", "title": "Tester.expect loses and reorders nothing", "statement": "expect() with discard_other_messages=False returns the first received message that matches, in reception order, and keeps all others in order for later calls; with discard=True exactly the messages received before the match are dropped.", "quantifier": "every received sequence, filter and history of expect/flush_input calls", "why_tests_cant": "all histories", "anchors": ["src/cantools/tester.py:Message.expect", "src/cantools/tester.py:Message._expect_input_list", "src/cantools/tester.py:Message._expect_input_queue", "src/cantools/tester.py:Tester.flush_input"]}
{"id": "C34", "title": "Periodic messages stop", "statement": "After Tester.stop() no periodic transmission started by this tester is active, and at any time at most one periodic task per message is active.", "quantifier": "every history of start/stop/enable/disable/send/assignment calls", "why_tests_cant": "all histories", "anchors": ["src/cantools/tester.py:Message.send_periodic_start", "src/cantools/tester.py:Message.send_periodic_stop", "src/cantools/tester.py:Tester.start", "src/cantools/tester.py:Tester.stop", "src/cantools/tester.py:Tester.enable", "src/cantools/tester.py:Tester.disable"]}
{"id": "C35", "title": "Tester sends what was set", "statement": "The frame sent by the tester is always the encoding of the current signal values, also when an assignment failed.", "quantifier": "every history of assignments, updates and sends", "why_tests_cant": "all histories including failing assignments", "anchors": ["src/cantools/tester.py:Message.__setitem__", "src/cantools/tester.py:Message.update", "src/cantools/tester.py:Message.send"]}
{"id": "C36", "title": "Log parsing", "statement": "Each candump/PCAN log line is parsed independently of the payload to the frame id, format and data written on it; iterating a log returns every parseable line in order and skips exactly the others.", "quantifier": "every log file and line", "why_tests_cant": "all line contents and file prefixes", "anchors": ["src/cantools/logreader.py:Parser.parse", "src/cantools/logreader.py:Parser.iterlines", "src/cantools/logreader.py:BasePattern.unpack"]}
{"id": "C37", "title": "The database cache is transparent", "statement": "load_file() with a cache directory returns the same database as without.", "quantifier": "every history of load_file calls with the same cache directory, every option combination", "why_tests_cant": "all histories", "anchors": ["src/cantools/database/__init__.py:load_file"]}
{"id": "C38", "title": "Database format probing", "statement": "load_string() without a format returns the database of the first parser in the documented order that accepts the text and raises UnsupportedDatabaseFormatError carrying every parser's error iff all fail; with a format only that parser is consulted.", "quantifier": "every text and parser behaviour", "why_tests_cant": "all parser outcomes", "anchors": ["src/cantools/database/__init__.py:load_string"]}
{"id": "C39", "title": "Signal order", "statement": "Message.signals is a permutation of the given signals sorted by start bit; equal keys keep their order; the layout of an encoded frame does not depend on the order in which signals were given.", "quantifier": "every signal list and its permutations", "why_tests_cant": "n! permutations", "anchors": ["src/cantools/database/utils.py:sort_signals_by_start_bit", "src/cantools/database/utils.py:sort_signals_by_start_bit_and_mux", "src/cantools/database/can/message.py:Message.__init__"]}
{"id": "C40", "title": "Signal tree lists every reachable signal", "statement": "Message.signal_tree mirrors the multiplexing structure, and the tester's inverted tree maps every signal to exactly the selector ids under which it is transmitted.", "quantifier": "every multiplexing tree", "why_tests_cant": "unbounded depth", "anchors": ["src/cantools/database/can/message.py:Message._create_signal_tree", "src/cantools/tester.py:invert_signal_tree"]}
{"id": "C41", "title": "is_similar", "statement": "Every database is similar to itself, and similarity detects a difference in any compared attribute.", "quantifier": "all databases", "why_tests_cant": "infinite", "anchors": ["src/cantools/database/can/database.py:Database.is_similar"]}
{"id": "C42", "title": "KCD positions survive dump and load", "statement": "A signal's start bit, length, byte order, scale, offset and multiplexing survive a KCD dump and load, and so do names, units, labels and comments, whatever characters they contain: the text of the file can be parsed and gives them back.", "quantifier": "all signals and messages", "why_tests_cant": "all layouts", "anchors": ["src/cantools/database/can/formats/kcd.py:_start_bit", "src/cantools/database/can/formats/kcd.py:_dump_message", "src/cantools/database/can/formats/kcd.py:_load_message_element"]}
{"id": "C43", "title": "Monitor bookkeeping", "statement": "In the monitor every received frame is counted once, discarded + errors never exceeds received, and the list of displayed message names stays sorted and duplicate-free. The screen shows, sorted by name, the messages that pass the filter, each with the signals of its latest frame; escape restores the filter; no input makes the monitor fail.", "quantifier": "every history of received frames, key presses and filters", "why_tests_cant": "all histories", "anchors": ["src/cantools/subparsers/monitor.py:Monitor.update_messages", "src/cantools/subparsers/monitor.py:Monitor.insort_filtered", "src/cantools/subparsers/monitor.py:Monitor.process_user_input_menu"]}
{"id": "C44", "title": "Layout dump shows the true layout", "statement": "In the ASCII layout of a message every bit cell is blank iff no signal uses that bit, X exactly where two signals use it, and otherwise part of an arrow from the signal's least to its most significant bit. Bytes and bits are numbered correctly, separators are open exactly where a signal continues, all bytes of the message and its signals and no others are drawn, and every signal's name stands once below its last byte, connected to the bit where it ends.", "quantifier": "every message that can be created, strict or not, with or without names", "why_tests_cant": "all layouts", "anchors": ["src/cantools/subparsers/dump/formatting.py:layout_string"]}
{"id": "C45", "title": "DBC files keep the database", "statement": "The text Database.as_dbc_string() gives for a database whose contents the DBC format can express can be loaded again, and the loaded database has the same messages (id, name, length, frame format, senders, send type, cycle time, comment, signal groups), signals (layout, byte order, sign, scaling, limits, unit, value table, multiplexing, receivers, comment, initial value, SPN), nodes, buses, environment variables, value tables, attributes and attribute definitions; names longer than 32 characters are restored if the text shortens them. The loaded messages encode and decode all frames as the original ones do.", "quantifier": "every database that satisfies the listed conditions on names, texts, limits, attributes and multiplexing; every order in which signals are written; with and without shortening of names; strict or not", "why_tests_cant": "all databases, all texts, all attribute combinations", "anchors": ["src/cantools/database/can/formats/dbc.py:dump_string", "src/cantools/database/can/formats/dbc.py:load_string", "src/cantools/database/can/formats/dbc.py:Parser", "src/cantools/database/can/formats/dbc.py:make_names_unique"]}
{"id": "C46", "title": "Initial values of tester messages", "statement": "A new tester message holds a value for each of its signals: the initial value of the database if there is one, else a number within the limits (0 if possible); selectors get values under which the message can be encoded, so every message of a valid database can be created and sent without setting anything.", "quantifier": "every message and its initial values", "why_tests_cant": "all layouts, multiplexing structures, limits and initial values", "anchors": ["src/cantools/tester.py:Message.__init__", "src/cantools/tester.py:Message._prepare_initial_signal_values"]}
{"id": "C47", "title": "load_file selects the format by extension", "statement": "load_file() without a format reads files with a known extension (in any case) with the parser of that format and, as documented, tries all formats for files with an unknown extension; without an encoding DBC and SYM files are read as cp1252 and all others as UTF-8.", "quantifier": "every file name, contents and option", "why_tests_cant": "all file names and contents", "anchors": ["src/cantools/database/__init__.py:load_file", "src/cantools/database/__init__.py:_resolve_database_format_and_encoding"]}
{"id": "C48", "title": "SYM files keep messages and signals", "statement": "The text Database.as_sym_string() gives for a database whose contents the SYM format can express can be loaded again, and the loaded database has the same messages (id, frame format, name, length, sender, cycle time, comment) with the same signals (layout, byte order, sign, scaling, limits, unit, comment, value table, SPN); in a message with a selector every signal is there once for each multiplexer id under which it is present. The loaded messages encode all data and decode all complete frames as the original ones do. In the text the places of signals are numbered the way SYM files number bits.", "quantifier": "every database that satisfies the listed conditions on names, texts, senders, multiplexing and ranges of ids; every order in which signals are written; strict or not", "why_tests_cant": "all databases, texts, multiplexer ids, data and frames", "anchors": ["src/cantools/database/can/formats/sym.py:dump_string", "src/cantools/database/can/formats/sym.py:load_string", "src/cantools/database/can/formats/sym.py:SymParser60"]}
{"id": "C49", "title": "The decode command prints every line of the log and every decoded signal", "statement": "`cantools decode` prints the lines of the log one after the other, each once. A line that is not a frame is printed as it is; a frame is followed by the name of its message and name, value and unit of each decoded signal, exactly once and in the order of the signals of the message, or by a text that says why it was not decoded (unknown frame id, container, decoding error). For container frames each contained message is printed in the same way. No frame makes the command fail.", "quantifier": "every database, log, and combination of the options of the command", "why_tests_cant": "all databases, logs and frame contents", "anchors": ["src/cantools/subparsers/decode.py:_do_decode", "src/cantools/subparsers/__utils__.py:format_message_by_frame_id", "src/cantools/subparsers/__utils__.py:format_container_message", "src/cantools/subparsers/__utils__.py:format_signals"]}
{"id": "C50", "title": "Multiplexed PDUs of ARXML files decode to the chosen alternatives", "statement": "A frame of an ARXML file whose PDU is multiplexed decodes to exactly the signals of the PDU, the selector, the signals of the static parts and the signals of the alternatives whose code is the number in the selector field, and so on for nested multiplexed PDUs; signals of other alternatives are not in the result. Values are the ones shown for the numbers in the bits of the signals.", "quantifier": "every tree of PDUs (plain, secured, multiplexed, any nesting), every payload, every combination of decoding options", "why_tests_cant": "all trees of PDUs and all payloads; nesting is unbounded", "anchors": ["src/cantools/database/can/formats/arxml/system_loader.py:_load_pdu", "src/cantools/database/can/formats/arxml/system_loader.py:_load_multiplexed_pdu", "src/cantools/database/can/message.py:decode"]}
{"id": "C51", "title": "Scaling, limits and names of ARXML signals are those of their compu method", "statement": "A signal loaded from an ARXML file shows, for every raw value in the interval of one of the scales of its COMPU-METHOD, what that scale says: its name or (V0 + V1*raw)/D. Names stand for their numbers when encoding. Minimum and maximum allow exactly the physical values of the raw values in the interval of the linear scale. The numbers in the elements are read as written: decimal, octal with a leading zero, hexadecimal, binary, floating point, true and false, in any letter case and with blanks around them.", "quantifier": "every compu method of the categories TEXTTABLE, LINEAR and SCALE_LINEAR_AND_TEXTTABLE, every text of a number, every raw value", "why_tests_cant": "all numerals and all combinations of scales, coefficients and raw values", "anchors": ["src/cantools/database/can/formats/arxml/utils.py:parse_number_string", "src/cantools/database/can/formats/arxml/system_loader.py:_load_system_signal", "src/cantools/database/can/formats/arxml/system_loader.py:_load_linear_scale", "src/cantools/database/can/formats/arxml/system_loader.py:_load_texttable", "src/cantools/database/can/formats/arxml/system_loader.py:_load_scale_linear_and_texttable", "src/cantools/database/conversion.py:BaseConversion.factory"]}
{"id": "C52", "title": "CDD files give the diagnostic identifiers they describe", "statement": "Loading a CDD file gives exactly the DIDs of the first variant of the first ECU, in order, with their identifiers and names. The data objects of a DID are those of its parts (data objects, structures of unions, references to shared DIDs) in the order of the document; each has the number of bits, byte order, signedness, number of elements, unit, linear function and names of its data type. Decoding a payload shows for each data object, and nothing else, the name or physical value of the number found at its bits, counted from the beginning of the payload in the order of the objects. A DID is found by its name and by its identifier; if several have the same, it is the last one; unknown ones are a KeyError. Adding a file to a database makes the DIDs of that file available.", "quantifier": "every CDD document, every DID in it, every payload that is long enough, every database", "why_tests_cant": "all documents, layouts and payloads; positions depend on the lengths of all objects before", "anchors": ["src/cantools/database/diagnostics/formats/cdd.py:load_string", "src/cantools/database/diagnostics/formats/cdd.py:_load_data_types", "src/cantools/database/diagnostics/formats/cdd.py:_load_did_element", "src/cantools/database/diagnostics/database.py:Database", "src/cantools/database/diagnostics/did.py:Did.decode"]}
{"id": "C53", "title": "References and locations in ARXML files lead to the elements they name", "statement": "An ARXML document is accepted exactly if the paths of its named elements are unique, the labels and the default of the reference bases of each package are unique and there are no global reference bases; otherwise a ValueError is raised. A reference leads to the element with its path and with the type in DEST, and to nothing if there is no such element. A relative reference is completed with the target of the reference base that has the given label (or is the default one) in the closest package around the element; if there is none a ValueError is raised. A location (a list of tags, with '*' where several elements are allowed and '&' where references are followed) gives exactly the elements it describes, in the order of the document.", "quantifier": "every document tree with any nesting of packages, every reference, every location and every list of start elements", "why_tests_cant": "all trees, nestings of packages and labels; the search for the reference base walks outwards over any number of packages", "anchors": ["src/cantools/database/can/formats/arxml/system_loader.py:SystemLoader._create_arxml_reference_dicts", "src/cantools/database/can/formats/arxml/system_loader.py:SystemLoader._get_absolute_arxml_path", "src/cantools/database/can/formats/arxml/system_loader.py:SystemLoader._follow_arxml_reference", "src/cantools/database/can/formats/arxml/system_loader.py:SystemLoader._get_arxml_children", "src/cantools/database/can/formats/arxml/system_loader.py:SystemLoader._get_unique_arxml_child"]}
{"id": "C54", "title": "An ARXML system description gives the frames it describes", "statement": "Loading an AUTOSAR 4 system description gives one message for each frame triggering of each CAN cluster in each package, in the order of the document, with the name of its bus, the identifier and frame format of the triggering, the name and length of the frame and the pattern of its unused bits. The signals of the message are those of the tree of PDUs to which the frame refers; each has the name, place in the frame, byte order, type, scales, unit, initial and invalid value that the document says. Decoding a payload of the frame shows exactly the signals of its PDU, each with the name or physical value that the scales give to the number in its bits. Loading fails only for a frame that cannot be a message.", "quantifier": "every element tree of a system description with any number of packages, clusters, frames, nested PDUs and references; every payload", "why_tests_cant": "all documents; the attributes of one signal are spread over elements connected by references of any depth", "anchors": ["src/cantools/database/can/formats/arxml/system_loader.py:SystemLoader._load_messages", "src/cantools/database/can/formats/arxml/system_loader.py:SystemLoader._load_message", "src/cantools/database/can/formats/arxml/system_loader.py:SystemLoader._load_pdu", "src/cantools/database/can/formats/arxml/system_loader.py:SystemLoader._load_pdu_signals", "src/cantools/database/can/formats/arxml/system_loader.py:SystemLoader._load_signal"]}
{"id": "C55", "title": "The plot command shows the samples of the log for the selected signals", "statement": "The plot command shows, for every argument of the command line in turn and every signal that has samples and belongs to the argument, a curve whose points are exactly the values that the frames of the log have for the signal between --start and --stop, in the order of the log, each at the place given by its time stamp (or line number), with gaps where --break-time asks for them. A signal belongs to an argument if the pattern (with * and ?) matches message.signal; '-' starts a new subplot and ',' a new axis, a colon introduces a format, and without arguments all signals are shown. Lines that are not frames, frames that are not in the database and frames that cannot be decoded are reported, counted or ignored as the options say.", "quantifier": "every database, list of arguments, combination of options and log of either candump format", "why_tests_cant": "all patterns, logs and time stamps; the kind of axis depends on the first line, the curve of a signal on all lines and on the arguments before", "anchors": ["src/cantools/subparsers/plot.py:_do_decode", "src/cantools/subparsers/plot.py:Signals", "src/cantools/subparsers/plot.py:Plotter", "src/cantools/subparsers/plot.py:TimestampParser"]}
{"id": "C56", "title": "Float signals follow IEEE 754 and scaling survives python's floats", "statement": "A float signal of 16, 32 or 64 bits is decoded as the number its bits stand for in IEEE 754, and encoding stores the nearest number of the format (ties to even), numbers of the format exactly, and rejects exactly the numbers beyond the largest one. With scale, offset and limits read as floats and all operations rounded to double precision, the physical value of an integer signal is within a small part of a step of the exact decimal value, encoding it gives the raw value back, and it is not rejected by the limits if the exact value is within them.", "quantifier": "every bit pattern and number; every scale between 2^-899 and 2^899, raw values and offsets of up to 2^49 steps for the way back, and raw values of up to 33 bits (31 bits when the rounding of the decimal numbers is taken into account) for the limits", "why_tests_cant": "2^64 bit patterns, all scales and raw values; rounding errors depend on every bit", "anchors": ["src/cantools/database/utils.py:encode_data", "src/cantools/database/utils.py:decode_data", "src/cantools/database/conversion.py:LinearConversion.raw_to_scaled", "src/cantools/database/conversion.py:LinearConversion.numeric_scaled_to_raw", "src/cantools/database/can/message.py:Message._assert_signal_values_valid"]}
{"id": "C57", "title": "Conversions of the generated C code", "statement": "With the option for rounding, the encode function of the generated C code gives back the raw value that the decode function got, for float and for double; without it the result is the raw value or one step nearer to zero, and exactly the raw value if scale and offset are multiples of a power of two with few digits. In double precision decode calculates what the python code calculates, and encode differs from it only for values in the middle of two raw values. The check of physical values accepts the numbers within the limits and, apart from them, at most the number nearest to a limit; if encode is defined at the limits, it is defined for everything that is accepted.", "quantifier": "every integer signal of up to 64 bits, raw value of up to 20 (float) or 49 (double) bits, scale between 2^-100 and 2^100 (float) or 2^-900 and 2^900 (double) and offset of up to 2^19 or 2^48 steps; every number of the type for the check", "why_tests_cant": "rounding errors depend on every bit of scale, offset and value; a test of some scales says nothing about the others", "anchors": ["src/cantools/database/can/c_source.py:_generate_encode_decode", "src/cantools/database/can/c_source.py:_generate_is_in_phys_range", "src/cantools/database/can/c_source.py:_generate_definitions"]}
{"id": "C58", "title": "Interface of the generated C code", "statement": "The generated header declares exactly the functions, structs and macros of the messages and signals that the chosen node sends or receives (all of them without a node), with the types and values of the database. Every declared function is defined with the same types. No two functions and no two macros have the same name. After the init function every member of a struct has the initial value of its signal, or zero if there is none.", "quantifier": "every list of messages, every name of the database and every combination of the options", "why_tests_cant": "names of messages, signals and choices are free texts that are joined, so clashes and missing parts depend on every combination of names, nodes and options", "anchors": ["src/cantools/database/can/c_source.py:generate", "src/cantools/database/can/c_source.py:_generate_declarations", "src/cantools/database/can/c_source.py:_generate_definitions", "src/cantools/database/can/c_source.py:_generate_structs", "src/cantools/database/can/c_source.py:_generate_choices_defines"]}
{"id": "C59", "title": "Database files and conversion", "statement": "A DBC, SYM or KCD file that was written for a database is read as a database with the same contents, on every platform and with every encoding that has the characters of the database. Converting a DBC or SYM file to DBC, SYM or KCD gives a file with the same messages: they encode all data to the same frames and decode all frames to the same values as those of the input file.", "quantifier": "every database that the output format can express, every encoding, line end, file name and input file", "why_tests_cant": "texts pass through an encoder, a translation of line ends, and back; whether nothing is lost depends on every character of every text", "anchors": ["src/cantools/database/__init__.py:dump_file", "src/cantools/database/__init__.py:load_file", "src/cantools/database/__init__.py:_resolve_database_format_and_encoding", "src/cantools/subparsers/convert.py:_do_convert"]}
{"id": "C60", "title": "Secured messages of ARXML files", "statement": "A message that a system description secures has, behind its payload, the signals <name>_Freshness and <name>_Authenticator. If apply_authenticator is applied to a frame of the message, the result is accepted by verify_authenticator, and decoding it gives the transmitted low bits of the freshness value, the leading bits of the authenticator that was computed over data id, payload and complete freshness value, and for every other signal the value that was in the frame before. The settings of the message (algorithms, lengths, data id, end-to-end protection) are those of the document.", "quantifier": "every system description, message, frame, freshness value and authenticator function", "why_tests_cant": "the trailer begins at any bit and its fields have any length; that no signal of the payload, in any alternative, is touched depends on the whole layout", "anchors": ["src/cantools/database/can/formats/arxml/system_loader.py:_load_secured_properties", "src/cantools/database/can/formats/arxml/system_loader.py:_load_pdu", "src/cantools/autosar/secoc.py:apply_authenticator", "src/cantools/database/can/message.py:Message.decode"]}
{"id": "C61", "title": "Containers of ARXML files", "statement": "The messages that a system description puts into a container are loaded with their header ids, names, lengths and signals, and the headers have the byte order that the system specifies. Decoding a container frame gives, for every entry in it, the contained message with this header id and the values of its signals; an entry with another header id or with a wrong number of bytes is given as bytes. What was encoded for a container is decoded to the same entries.", "quantifier": "every system description with container PDUs, every frame and every list of entries", "why_tests_cant": "any number of entries of any length in any order, with known and unknown ids; the byte order is read from another element than the container, in any package", "anchors": ["src/cantools/database/can/formats/arxml/system_loader.py:_load_pdu", "src/cantools/database/can/formats/arxml/system_loader.py:_load_system", "src/cantools/database/can/message.py:Message.decode_container", "src/cantools/database/can/message.py:Message.unpack_container"]}
{"id": "C62", "title": "Nodes, senders and receivers of ARXML files", "statement": "The nodes of a database that was loaded from a system description are its ECUs. The senders of a message are exactly the ECUs that send one of the PDUs of the message, and the receivers of a signal are exactly the ECUs that receive the PDU of the signal, each of them once; this includes network management and the messages in containers. Senders and receivers are nodes of the database.", "quantifier": "every AUTOSAR 4 system description, message and ECU", "why_tests_cant": "PDUs are connected with frames and ECUs by references in arbitrary packages, through any nesting of multiplexed, secured and container PDUs", "anchors": ["src/cantools/database/can/formats/arxml/system_loader.py:_load_senders_and_receivers", "src/cantools/database/can/formats/arxml/system_loader.py:_load_senders_receivers_of_nm_pdus", "src/cantools/database/can/formats/arxml/system_loader.py:_load_nodes", "src/cantools/database/can/message.py:Message.receivers"]}
{"id": "C63", "title": "ECU extracts", "statement": "The messages of a database that was loaded from an ECU extract are exactly the PDUs of the module Com, each with its name, the identifier (of 11 or 29 bits) and the length that CanIf has for it and the signals it refers to, with their position, size, byte order and type. Decoding a frame gives every such signal the number in its bits, and nothing else. An extract is rejected only because one of its messages is not acceptable by itself.", "quantifier": "every ECU extract (AUTOSAR 4), message, signal and payload", "why_tests_cant": "parameters and references come in any order among others, containers are connected by references through packages, and there is only one small extract among the tests", "anchors": ["src/cantools/database/can/formats/arxml/ecu_extract_loader.py:EcuExtractLoader.load", "src/cantools/database/can/formats/arxml/ecu_extract_loader.py:EcuExtractLoader.load_message", "src/cantools/database/can/formats/arxml/ecu_extract_loader.py:EcuExtractLoader.load_signal", "src/cantools/database/can/formats/arxml/ecu_extract_loader.py:EcuExtractLoader.find_can_if_rx_tx_pdu_cfg"]}
{"id": "C64", "title": "What the list command tells", "statement": "The command list names exactly the messages of the database that are not excluded, in alphabetical order; with names it prints the details of these messages in the given order, and says which of them do not exist; with --all it prints every message once. The details tell all there is to know for the encoding: if the details of two messages (or of two whole databases) are the same text, then the messages have the same identifiers, sizes, senders, comments and signals, with the same places, types, scalings, limits, units, receivers, named values and multiplexing, so they encode and decode in the same way. Every message that can be made is listed without error.", "quantifier": "every database, message (with or without contained messages), set of arguments, and pair of databases", "why_tests_cant": "the text is made of many optional lines whose labels could be confused with each other or with texts of the database; the tests compare the listing of some files with fixed texts", "anchors": ["src/cantools/subparsers/list.py:_print_message", "src/cantools/subparsers/list.py:_do_list_messages", "src/cantools/subparsers/list.py:_print_bus", "src/cantools/subparsers/dump/formatting.py:signal_tree_string"]}
{"id": "C65", "title": "Attributes of relations survive DBC files", "statement": "Writing a database to a DBC file and reading it again keeps the attributes of relations: their definitions with kinds, types, limits, named values and defaults, in the same order, and the value of each attribute for each node with a signal or a message, under the frame id, signal name and node name they had, also when long signal names are shortened in the file. The rest of the database is kept too. A database without such attributes is written exactly as if they did not exist, and such attributes in a file never change what else is read from it.", "quantifier": "every database whose contents a DBC file can hold, with any number of definitions and relation attributes, with and without shortening of names; every text that is read", "why_tests_cant": "the attributes are nested in dictionaries by frame id, signal, node and name, and signal names are changed on the way to the file and back; the tests have one small file whose names are all short", "anchors": ["src/cantools/database/can/formats/dbc.py:_dump_relation_attributes", "src/cantools/database/can/formats/dbc.py:_dump_relation_attribute_definitions", "src/cantools/database/can/formats/dbc.py:_load_relation_attributes", "src/cantools/database/can/formats/dbc.py:get_relation_definitions_dict", "src/cantools/database/can/formats/dbc.py:update_signal_relation_attribute_names", "src/cantools/database/can/formats/dbc.py:update_signal_relation_attribute_names_after_load"]}
{"id": "C66", "title": "Buses and end-to-end protection of ARXML files", "statement": "Loading an AUTOSAR 4 system description gives one bus for each CAN cluster with a variant, with its name and baudrates, in the order of the file, and the bus of every message is one of them. A message whose PDU, or a PDU it is made of, is named in a set of end-to-end protections gets the profile and data ids of the last such protection, and so does each message in a container; all other messages and all other properties are unchanged. Checksums of profile 5 for such a message are computed with the data id of the file and are then accepted.", "quantifier": "every system description, with any packages, clusters, protection sets and nesting of PDUs; every payload of the length of the message", "why_tests_cant": "protections refer to PDUs by path and later ones override earlier ones and those of signal groups; tests have one file with a few protected messages", "anchors": ["src/cantools/database/can/formats/arxml/system_loader.py:_load_buses", "src/cantools/database/can/formats/arxml/system_loader.py:_load_e2e_properties", "src/cantools/autosar/end_to_end.py:apply_profile5_crc"]}
{"id": "C67", "title": "Testers that share a bus", "statement": "A tester is created exactly if the device under test is a node of the database (or not named), the bus is one of its buses (or there are none and none is named), and the initial values of every message of the bus can be encoded; wrong names are refused with an error. Whatever is done with it afterwards, its messages are those of its bus, the last of each name; calls for other names are refused and change nothing. When started it sends exactly the messages with a cycle time that the device under test does not send. It receives exactly the data frames of messages of the database whose name is that of an enabled message of its bus. If two testers of the same database are on the same bus, what one sends the other receives, with the values the sender has, and expect returns it.", "quantifier": "every database, every choice of device, bus and options, every history of calls and received frames of both testers, every values that are sent", "why_tests_cant": "what arrives depends on the history of both testers, on the other messages of the database and on all the values that can be sent; tests use a few fixed messages on one bus", "anchors": ["src/cantools/tester.py:Tester", "src/cantools/tester.py:Listener.on_message_received", "src/cantools/tester.py:Message.send", "src/cantools/tester.py:Message.expect", "src/cantools/tester.py:Messages"]}
{"id": "C68", "title": "What the dump command tells", "statement": "Every database that can be loaded can be dumped. The dump of a CAN database has a title and then one page for each message, in order, followed by one page for each message it can contain; each page ends with a rule that appears nowhere else. What is printed determines for each page the message it belongs to and in which it is contained, its frame id or header id, whether it is a J1939 message, its length, cycle time, senders, contained messages, the picture of its layout, its signal tree, and the named values of its signals. For a J1939 message the page shows the priority, parameter group number, source and destination that its identifier has. With the name of a message only the last message of that name is dumped, and an unknown name is an error. Dumping a database again prints the same. The dump of a diagnostics database determines its DIDs and the name, start bit and length of their datas.", "quantifier": "every CAN and diagnostics database with names without white space, and every message name", "why_tests_cant": "tests compare the output for a few files; that two databases with different messages never have the same dump is a statement about all pairs of databases", "anchors": ["src/cantools/subparsers/dump/__init__.py:_do_dump", "src/cantools/subparsers/dump/__init__.py:_dump_can_message", "src/cantools/subparsers/dump/__init__.py:_print_j1939_frame_id", "src/cantools/subparsers/dump/__init__.py:_dump_diagnostics_database", "src/cantools/subparsers/dump/formatting.py:signal_choices_string", "src/cantools/database/utils.py:format_and"]}
{"id": "C69", "title": "Frames secured with the example authenticator", "statement": "With a secret that is not empty the example authenticator (SnakeOilAuthenticator) gives five bytes for all data and freshness values, each a checksum of every fifth byte. A frame secured with it is rejected after any change of one byte of its payload, if the transmitted part of the authenticator includes the checksum for this byte.", "quantifier": "every secret, message with security settings, frame, freshness value, position and new value of the byte", "why_tests_cant": "a test secures one frame and changes one byte of it; the claim is about every frame, byte and secret", "anchors": ["src/cantools/autosar/snakeauth.py:SnakeOilAuthenticator", "src/cantools/autosar/secoc.py:apply_authenticator", "src/cantools/autosar/secoc.py:verify_authenticator"]}
{"id": "C70", "title": "The generated fuzzer finds nothing", "statement": "The fuzzer that is generated together with the C code unpacks its input, packs the result, unpacks that again and packs once more, and traps if the two structs or the two packed frames differ. It never traps and runs into no undefined behaviour: inputs shorter than the message are rejected by the unpack function, for all others both structs and both frames are the same. Every function it calls is declared and defined by the generated code.", "quantifier": "every message that passes the strict check and whose signals C code can be generated for, every input of every length, every content of uninitialised buffers", "why_tests_cant": "a fuzzer tries inputs for some seconds for one database; the claim is about all inputs and all databases", "anchors": ["src/cantools/database/can/c_source.py:_generate_fuzzer_source", "src/cantools/database/can/c_source.py:TEST_FMT", "src/cantools/database/can/c_source.py:generate"]}
{"id": "C71", "title": "The generated C source refers to nothing undefined", "statement": "Every helper function that a generated pack or unpack function calls is defined in the generated source file, and none is defined twice; if no node is given, every helper that is defined is also called. Every variable that a function uses is declared in it, and every struct member it accesses is a member of the declared struct of its message. If the names of the signals of a message differ in C and none of them is dst_p, src_p or size, no name is declared twice in a function. The lines of a function are exactly those whose execution C30 is about.", "quantifier": "every database, every signal tree with nested multiplexers, every set of options", "why_tests_cant": "the helpers and variables that a file needs depend on the positions, lengths, signs and multiplexing of all its signals; tests compile the files of some databases", "anchors": ["src/cantools/database/can/c_source.py:_generate_helpers", "src/cantools/database/can/c_source.py:_format_pack_code", "src/cantools/database/can/c_source.py:_format_unpack_code", "src/cantools/database/can/c_source.py:_generate_definitions"]}
{"id": "C72", "title": "Assignments to attributes of signals", "statement": "After any sequence of assignments to scale, offset, choices and is_float of a signal, these attributes show the values that were assigned last, and the signal converts values like one constructed with them. A message one of whose signals has been changed in this way, without refresh, encodes and decodes like a message constructed with the changed signals, for assignments to scale and offset of any signal and to the value table of a signal that is not a multiplexer.", "quantifier": "every signal, every message that can be constructed, with nested multiplexers, every sequence of assignments to its signals", "why_tests_cant": "tests assign each attribute once; the claim is about all sequences of assignments and about everything that a message computes from its signals when it is constructed", "anchors": ["src/cantools/database/can/signal.py:Signal.scale", "src/cantools/database/can/signal.py:Signal.offset", "src/cantools/database/can/signal.py:Signal.choices", "src/cantools/database/can/signal.py:Signal.is_float", "src/cantools/database/can/message.py:Message.get_signal_by_name", "src/cantools/database/can/message.py:Message.refresh"]}
{"id": "C73", "title": "The command that generates C code", "statement": "cantools generate_c_source writes the header and the source file, and the two files of the fuzzer if they are wanted, into the output directory under the database name, with what the generator returns for the options of the command line, names the files it has written, and changes no other file. If the input cannot be loaded or no code can be generated, nothing is written or printed. Without --database-name the name is made of the name of the input file without directories and extension and consists of lower case letters, digits and underscores.", "quantifier": "every command line, input file, state of the file system and failure of loading, generating, creating the directory or opening a file", "why_tests_cant": "tests run the command for some files and options in an empty directory and without failures", "anchors": ["src/cantools/subparsers/generate_c_source.py:_do_generate_c_source", "src/cantools/subparsers/generate_c_source.py:add_subparser", "src/cantools/database/can/c_source.py:camel_to_snake_case"]}
