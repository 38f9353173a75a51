# Formal model of cantools in Lean 4 — design

Everything below `/verif/lean/Verif` is a shallow functional model of the python
code in `/repo/src/cantools` (cited as `file:lines`), together with theorems about it.
The python code is never executed; the tie between model and code is the citation
carried by every definition.

## Layout

| directory            | content |
|----------------------|---------|
| `Verif/Model/*.lean` | the model: one definition per python function, each citing file and lines |
| `Verif/Spec/*.lean`  | small independent specifications (bit positions, abstract maps, ...), no model helpers |
| `Verif/Lemmas/*.lean`| helper lemmas |
| `Verif/Props/*.lean` | the property theorems, with non-vacuity `example`s next to them |

## Modelling conventions

* Exceptions are values: every function that can raise returns `Except Err α`; `Err` has one
  constructor per python exception class that matters (`EncodeError`, `DecodeError`, `KeyError`,
  `OverflowError`, ...). Messages of exceptions are not modelled.
* `int` is `Int`/`Nat`, `float` is idealised as an exact rational `Rat` (python's `int`/`float`
  compare by value, so one type suffices). `round()` is round-half-to-even. Rounding errors of IEEE
  arithmetic are *not* in the model of the codec; `Ieee` models the packing of floats and the
  arithmetic of conversions and limits in double precision, and C56 bounds the difference.
* `bytes` is `List UInt8`; dictionaries are association lists with python's semantics
  (insertion order, later assignment wins).
* Loops are folds or structural recursion; recursion on codecs is structural, the recursive
  construction of codecs takes fuel, and a theorem shows the fuel is never exhausted.

## Trusted base

* Lean 4.33's kernel, and the axioms `propext`, `Classical.choice`, `Quot.sound` (no others; checked
  with `#print axioms`, results in the table at the end).
* The reading of the python source embodied in the definitions of `Verif/Model`.
* Contracts of libraries the code calls, modelled from their documentation:
  `bitstruct` (big-endian bit concatenation of `u/s/f/p/r` fields, zero fill up to a byte, range
  errors), `crccheck` (`Crc8Autosar`: poly 0x2F init 0xFF xorout 0xFF, `Crc16Autosar`: poly 0x1021
  init 0xFFFF xorout 0), `int.from_bytes/to_bytes`, `sorted` (stable), `dict`, `queue.Queue`
  (FIFO), python-can periodic tasks (a task is active from creation until its `stop()`),
  `diskcache` (a map), C integer semantics for the generated code (two's complement, shifts on
  promoted unsigned types), IEEE packing of `f` fields (a parameter `FloatOps` of the
  theorems about the codec; `Ieee.ops` is the instance for IEEE 754, see C56).

## Not modelled

* of the format ARXML: AUTOSAR 3, containers in containers and secured containers, cycle times, comments, the sets of end-to-end protections (`_load_e2e_properties`), the XML text, the XML text of CDD files, of SYM files the formats before 6.0 (which are rejected), in the XML text of KCD files everything `dump_string` does not write (prolog, comments, `CDATA`), errors of
  the file system, the curses library (the monitor is modelled as its state and the lines it draws), matplotlib
  (the `plot` command is modelled up to the curves it hands over), argument parsing, logging, texts of error messages and `__repr__`;
* of DBC texts: the relation `BU_EV_REL_`, the options to sort attributes and choices, signal types of environment variables beyond what is read;
* IEEE rounding outside of C56, NaN/infinity, python's `bool`/`int` subclassing, thread interleavings
  below the granularity of one queue operation, real time (timeouts are modelled as "no further
  input").

## Plan per property

| id | modelled | proof |
|----|----------|-------|
| C01 | `create_encode_decode_formats`, bitstruct pack, `encode_data`, `_encode`, `encode` | refinement of the payload to the bit-position spec: `testBit` characterisation of packed formats by induction over sorted signals, then induction over the codec tree |
| C02 | padding masks, `encode(padding=True)` | same induction, mask bit set iff bit is free |
| C03 | + bitstruct unpack, `decode_data`, `_decode` | from the C01 and C04 characterisations, two's complement uniqueness |
| C04 | decode | characterisation of the unpacked value as the number in the signal's bits |
| C05 | `_check_signal`, `_check_mux`, `_check_signal_tree`, `refresh` | invariant "message_bits marks exactly the bits used so far", induction over the signal tree, both directions |
| C06 | `_create_codec`, `_get_mux_number` | membership characterisation of selected signals by induction over the tree |
| C07 | `_create_codec` with fuel | path of distinct signals, pigeonhole |
| C08 | `gather_signals` | mutual induction over the codec |
| C09 | `assert_signals_encodable`, `_assert_signal_values_valid` | decision logic, iff |
| C10 | `encode` | from C01 lemmas; range errors from the bitstruct contract |
| C11, C12 | `decode_data` with flags | case analysis + C04 |
| C13, C14 | conversion classes | rational arithmetic, half-even rounding |
| C15, C16 | `NamedSignalConversion`, `prune_signal_choices` | list reasoning; C16's last clause is expected to be false (stale inverse table) → negation with witness |
| C17, C18 | `_encode_container`, `unpack_container`, `decode_container` | induction over the list/bytes; little-endian headers expected false → negation |
| C19–C21 | `Database` | abstract "last added wins" spec; C20 expected false for masks → negation |
| C22 | `j1939.py` | bit-field arithmetic |
| C23 | `autosar/end_to_end.py`, CRC as polynomial division | linearity of the CRC register; burst detection |
| C24 | `autosar/secoc.py` | bit list reasoning with an arbitrary authenticator |
| C25 | `diagnostics/did.py`, `cdd.py` layout | reuse of the codec theorems |
| C26–C29 | functions of `dbc.py` | arithmetic / list induction |
| C30–C32 | `c_source.py`: the generated statements interpreted over C integers | per-segment bit characterisation against the same bit-position spec |
| C33–C35 | `tester.py` as a state machine | induction over histories; C34/C35 expected false → negation + partial |
| C36 | `logreader.py` | decision logic, induction over lines |
| C37 | `load_file` cache | history refinement; expected false for custom sort functions → negation + partial |
| C38 | `load_string` | decision logic |
| C39 | sort functions | permutation / stability of insertion sort |
| C40 | signal tree, `invert_signal_tree` | mutual induction |
| C41 | `is_similar` | structural induction |
| C42 | `kcd.py` dump and load of elements, and their XML text (`Model/KcdXml.lean`: `_indent_xml`, `ElementTree.tostring`, a reader for the documented XML it writes) | involution, list induction, permutation; multiplexing with several ids or levels does not survive → negations |
| C43 | monitor state machine: queue, counters, filter, keys, formatting of lines, window; looking up and decoding a frame, `re` and curses are parameters | one invariant over all histories of frames, ticks and keys; the error counter after a reset, the filter after errors and the display after a reset are refuted with witnesses |
| C44 | `layout_string`, all of it, for created messages (strict or not) | per-signal glyph lemma (`glyph`), union of characters, blocks of lines per byte; the statement is about rows and columns of the text (`Spec/Dump.lean`). Note: signals that exclude each other (multiplexing) are crossed out too (`C44_crossed_out_but_valid`) |
| C45 | `dbc.py`: tokenizer (`DbcLex`), grammar, `dump_string` with `remove_special_chars` and `make_names_unique`, `load_string` (`DbcFile`); the text of floating point numbers is a parameter with laws (`FloatLaws`), `\\w` and `isdigit` beyond ASCII too (`UnicodeLaws`) | (1) the text is the rendering of a list of entries; lexing and parsing a rendered list gives the list (induction with a separator invariant), (2) each loader applied to the entries gives back the data (dictionary lemmas), (3) short names are an injective renaming that the long-name attributes undo, (4) C05 and C39 (up to the order of multiplexer ids) carry over construction, encoding and decoding. What a DBC file does not keep is shown by evaluated witnesses |
| C48 | `sym.py`: tokenizer (`SymLex`), grammar, `dump_string`, `load_string` (`Sym`) | (1) the text is the rendering of a document, which the parser reads back; (2) loading a document gives each message with its signals spread over the multiplexer ids; (3) such a message is constructible, encodes the same data and decodes the same frames (`OneMux`: an induction over the ids, with C01/C10/C12 on both sides). False for truncated frames, which is shown by a witness |
| C49 | `subparsers/decode.py`, `subparsers/__utils__.py` (`DecodeCommand`), on top of the log reader, the lookup by frame id, `decode` and `decode_container`; texts of numbers, units and exceptions are parameters | induction over the lines that the log reader gives; for each frame the printed entries are a permutation of the decoded values, in the order of the signals (C10: keys of a decoded dictionary are names of present signals, each once). Decoding errors are the only errors (C12, C18). False for messages with repeated signal names, extended frames with small ids and logs that end the reader (witnesses) |
| C50 | `_load_pdu`, `_load_multiplexed_pdu` of the ARXML loader (`Arxml`), on trees of PDUs: references are followed and elements of signals are read before; containers are left out | mutual induction over the tree: the signals in a list that are there for given selector values are the signals of the tree for the chosen alternatives; signals below a selector are closed, so presence in a part of the list and in the whole list agree. Then C04. False if two nested selectors at the same depth exist (they get the same name) and if a nested selector takes the place of the copy of the outer one (witnesses) |
| C51 | `parse_number_string` and the compu methods of the ARXML loader (`ArxmlScale`); `float` and `float.fromhex` are parameters, references between elements are followed before. Interval types (open, closed), infinite limits, units and comments are left out | digits by induction with `Nat.ofDigits`; the loop over the scales by induction, the table of names and the scaling are determined by the scale that made the entry. False for signed octal numbers and floating point numbers with a superfluous zero, for decreasing and for several linear functions and for names of intervals (witnesses) |
| C52 | the whole loader of CDD files from the XML elements on (`Cdd`, on top of `Did`), and the diagnostic database; the text of floating point numbers is a parameter. The specification says what a document describes (`CddSays`) without the loader's functions | the tables of data types and shared DIDs by induction (`get_unique`), parts of a DID by sorting them by kind, then C25 for the layout and the decoding. False for signed numbers, fields of several elements, names of ranges and parts in another order (witnesses) |
| C53 | the tables of paths and reference bases, references and locations of the ARXML loader (`ArxmlRef`), on element trees whose tags have no namespace; positions in the tree stand for the identity of elements. The specification (`HasPath`, `BaseFor`, `Leads`, `Locate`) speaks about the tree only | the recursion over the tree is the fold over its elements in document order (`addSub_eq`); an invariant of the fold says what the tables contain, and it fails exactly at the first clash (`fold_says`); the search for the base by induction over the number of names. False where a location does not allow references: they are followed anyway (witness) |
| C54 | the loader of AUTOSAR 4 system descriptions (`ArxmlFile`): packages, clusters, frame triggerings, frames, PDUs and signals of an element tree, on top of C53 (references), C51 (numbers and compu methods) and C50 (multiplexing). The recursion over PDUs has a depth bound, as in python; texts that are missing where one is needed and negative places are errors | each function of the loader returns what the elements at its locations say (the specification uses `Locate` and `PlainNumber` only, never the loader); the loading of PDUs by mutual induction over the described tree, which reduces to the model of C50; packages by induction over the tree. Decoding by C50 and C04. False for PDUs that do not begin at byte 0 of the frame (their place is ignored), for one's complement and sign-magnitude encodings; the name of the system signal is never used (witnesses) |
| C55 | the `plot` command (`Plot`): regular expressions of both candump formats and of the output of `decode`, detection of the axis, bounds, the loop over the lines, arguments, patterns, collection of values and drawing up to the calls of matplotlib. Reading of time stamps and bounds (`datetime`, `float`, relative times) is a parameter (`Clock`) | lines by the regular expression lemmas of C36; arguments and patterns by induction (the translated pattern matches exactly the names for which the glob relation of the specification holds); the loop by invariants relating graphs and notes to the entries read so far; drawing by induction over arguments with the set of names drawn. `C55_success`: the command succeeds if stamps and bounds can be read. False of the comment in the code that a complete name draws a signal again, and of bounds with line numbers; half a byte ends the command (witnesses) |
| C56 | `f` fields of bitstruct (binary16, binary32, binary64), the arithmetic of `float` (each operation is the exact one, rounded to the nearest double), `LinearConversion` and the check of limits with it (`Ieee`). NaN, infinities as operands and the sign of zero are left out | exponent and significand form one natural number (the bits); the number of a code and the code of a number are inverse; nearest: numbers with a smaller exponent are below, all others are multiples of the last place, then `round` to integers. Errors: relative error 2^-53 for normal numbers and for every sum, then triangle inequalities; the limits by monotonicity of rounding. The claim fails beyond the stated ranges (witnesses) |
| C57 | the expressions of `…_encode`, `…_decode` and `…_is_in_phys_range` with their meaning in C (`CConvert`): every operation and every literal is rounded to `float` or `double`, `round` is half away from zero, conversion to an integer type drops the fraction and is undefined if the rest does not fit. Infinite results count as undefined; excess precision (`FLT_EVAL_METHOD` other than 0) and contraction are left out | the four shapes of an expression are equal to the general one (subtracting 0 and dividing by 1 are exact); error bounds for both formats at once; monotonicity of rounding for the limits. Truncation loses steps (witness) |
| C58 | the names and types of everything the header declares and of the definitions, and the assignments of `…_init` (`CHeader`); comments, the include guard and the `static` helpers are left out | the lists of the generator against inductive descriptions of functions and macros; names are distinct because prefixes that end with an underscore determine the message and endings determine the kind. False in general (witnesses): types that conflict, functions without definition, clashes, initial values whose physical value is zero |
| C59 | `dump_file`, `load_file` and the `convert` command for DBC and SYM files (`Files`) and from them to KCD files (`KcdFile`): codecs, universal newlines, `os.linesep`. Codecs are a parameter; cp1252 is defined by its table | the characters of a written text are those of the texts of the database and ASCII (induction over the writers), so the codec keeps them; reading translates line ends, which changes only white space between tokens as long as no text has a carriage return; then C45 and C48. Loaded messages can be constructed, so a conversion needs no other assumptions. For KCD: the conditions on a `DDatabase` imply those of C42, and a float that is read as unsigned has the same raw values (`SameSign`). A SYM file has senders and no nodes, so it cannot be converted to KCD |
| C60 | the secured PDUs of the ARXML loader (in `Arxml` and `ArxmlFile`): their settings, the signals of the trailer and the end-to-end protection of signal groups, composed with `secoc.py` (C24) | the trailer begins at a bit of the wire, so a field of it is read most significant bit first; signals that are in the frame at the same time as the trailer have no bits in it (C05), by induction over selectors the same signals are there before and after; then C04 and C24 |
| C61 | the branch of `_load_pdu` for containers and `_load_system` (in `ArxmlFile`), composed with `decode_container` (C18) and `encode` of containers (C17) | the contained messages as those of frames (C54); induction over the packages: if all systems in listed packages say the same, this is the order of the headers; then C18 and C50 for the entries. Little endian headers are false (witness) |
| C62 | `_load_senders_and_receivers`, `_load_nodes` and the paths of PDUs that `_load_pdu` collects (`ArxmlNodes`); comments of nodes are left out | every element with a name has one path, so comparing paths is comparing elements; the collected paths are those of the reflexive transitive closure of "is made of" (induction over the fuel); what the loops do to senders and receivers, by induction over the list of (ECU, PDU, direction). Receivers of a signal of one alternative are also receivers of the others (witness) |
| C63 | `EcuExtractLoader` on XML elements (`EcuExtract`): all of it but the log messages | a way of tags and names that is unique is what `find` follows; the loops over parameters by induction over the list, with the hypothesis that each parameter that matters occurs once; the search in `CanIf` by induction; decoding by C04. Signed numbers of 64 bits, signal groups, CAN FD with 29 bits, PDUs in other packages and packages in packages are read wrongly (witnesses) |
| C64 | the `list` command (`Listing`) and `signal_tree_string`, from the database on: the lines that are printed. Loading the file is C45, C48, C59 etc.; console widths (textwrap) do not matter for names without white space | the lines of a message are sections whose labels tell them apart (`sections_eq`), then blocks of signals, named values and contained messages that begin with a line of another indentation (`blocks_eq`); each value is determined by its text; lines have no line ends, so the whole text determines the lines. Selection by the last message of a name. What the listing does not tell is shown by witnesses: comments of several lines, frame ids of messages with a header id, scaling factors very close to one, the first of two messages with the same name |
| C65 | `dump_string` and `load_string` with the lines `BA_DEF_REL_`, `BA_DEF_DEF_REL_` and `BA_REL_` (`DbcRelations`), on top of the model of C45 | the lines for relations are further entries of the same grammar, put between the others (`renderR_eq`); what is read from the other entries does not depend on them (`loadEntries_congr`); filling nested dictionaries in the order of the file gives the dictionaries that were written (`fill_items`), and renaming to short names and back is the identity on the names of a message. Witnesses for what the hypotheses exclude: definitions without a kind, names with special characters, short names of nodes |
| C66 | `_load_buses` and `_load_e2e_properties` (`ArxmlProtect`) on top of the model of C62; comments of buses are left out | each cluster gives a bus, so the bus of a triggering is found among them (`trigger_bus`); the protections are done one after the other, by induction the last one that names a part of a message decides (`apply_all`); the checksum by C23. The protected length is that of the whole message, also if only a part is protected (witness) |
| C67 | a whole tester (`TesterBus`): `__init__`, the listener, `send`, `expect`, `enable`, `disable`, `start`, `stop` and changes of signals, on top of the models of C33–C35 and of the database (C19). Left out: the callback `on_message`, the frames of active periodic tasks (C35), what python-can refuses | the messages of a tester are an invariant of all calls; sending and receiving compose the round trip of C03 with the lookup of C19; witnesses where a frame id is shared with another bus, and for containers |
| C68 | the `dump` command (`DumpCommand`) for CAN and diagnostics databases, as the list of printed lines, on top of the layout (C44), the signal tree (C64) and the J1939 functions (C22). Left out: `--with-comments`, line separators and wide names in texts, the part of the output before an exception | pages are cut at the rule, the parts of a page at their labels; the lines of each part are injective (hexadecimal numbers, joined senders, named values up to white space at their end) |
| C69 | `SnakeOilAuthenticator.__call__` (`SnakeOil`), used as the authenticator of C24; the conversion of a secret given as text is left out | invariant of the loop: each byte of the result is the checksum of a column; replacing a byte of the payload replaces one byte of what is authenticated (from the characterisation of C24) and so changes one column |
| C70 | the tests of the generated fuzzer (`CFuzz`), executed with the C semantics of C30; the functions they call against those of C58. Left out: the bytes between the members of structs, arrays of size 0, what the assertions print | both frames are determined by the members of the first struct (C30_pack); a struct that was unpacked selects the signals that the frame selects, so the second unpack reads the members that were packed and leaves the same ones zero |
| C71 | the lines of pack and unpack functions with the set of helper kinds and the list of variables that the generator passes along (`CUnit`), for all messages; structs from C58. Left out: the order of helpers and variables, C keywords as names (a witness shows that they are not avoided) | induction over the signal tree: what was collected is what the lines written so far refer to; the sets are shared by all messages; a second induction shows that the lines are those of the code of C30 |
| C72 | the setters of `Signal` on conversions, and their effect on the signals that the nodes of a codec refer to (`SignalEdit`). Left out: `is_float` of a signal of a message (its format would be stale), several signals of the same name | induction over the history; a construction with other conversions gives the same tree, the same check and the same nodes with these conversions (induction over the depth of the tree); formats do not depend on scale, offset and value table. False for the initial value and for value tables of selectors (witnesses) |
| C73 | `_do_generate_c_source` over a file system (`CCommand`); loading, generating and the failures of directories and files are parameters, so that the claim holds for all of them. Left out: failures while a file is written, directories in the file system | the steps are executed in order (induction); the four paths differ because they have the same beginning and different suffixes |
| C46 | `_prepare_initial_signal_values`, `Message.__init__` of the tester | the settings are those of the inverted signal tree (C40); below each selector there is a signal that selects nothing (induction on the length of the path), so each selector gets a value with a branch; then C08/C10. False in general: limits with only a negative maximum, offsets that make 0 unrepresentable, selectors with only a value table, initial value 0 ignored (witnesses) |

## Where the code does not do what a user expects

While proving the properties these cases were found in which the code as it is does not meet the property as stated, or
loses something. Each is a theorem about the model with a concrete witness, unless its statement says more.

* `C03_selector_between_integers`: The round trip fails for a selector value between two integers: 1.6 selects branch 1 but is written as 2, so the frame is decoded along another branch.
* `C05_unreachable_signal_not_checked`: What the strict check does not see: a signal whose selector does not exist may stick out of the payload.
* `C07_duplicate_names_diverge`: Without distinct names the construction need not end: a selector "A" below another "A" is its own child. No recursion depth is enough.
* `C09_unknown_name_not_EncodeError`: C09's documented exception is not raised for an unknown name: the check fails with `KeyError` (message.py:745 expects `None` for unknown names, but the table lookup raises).
* `C10_unsorted_signals_overflow`: With `sort_signals=None` the little endian format relies on the order of the signals: for two signals given in descending order, which the strict check accepts, encoding representable values raises `OverflowError` and no payload can be decoded.
* `C15_duplicate_names`: With a name that occurs twice, the name shown for a number may be encoded as another number.
* `C16_pruned_message_not_reencodable`: C16 does not hold for messages: after pruning, what decoding returns cannot be encoded.
* `C16_pruned_selector_breaks_decoding`: After pruning the value table of a selector, decoding a valid message raises `EncodeError` or `KeyError`.
* `C16_single_not_idempotent`: Pruning a table with one entry twice may shorten the name twice.
* `C17_little_endian_header_fails`: C17 does not hold for little endian headers: `encode` honours `header_byte_order`, `unpack_container` does not (message.py:1030), so the entry is attributed to another header id.
* `C20_mask_ignored`: C20 fails for a mask: `get_message_by_frame_id(0x12345678)` finds the message, `decode_message` raises `KeyError`.
* `C23_profile2_counter`: C23 fails for a message with several data ids: flipping the lowest bit of the sequence counter is not detected if the data ids are chosen badly, since another data id is used in the CRC.
* `C25_cdd_overlap`: A big endian byte after a half byte overlaps it: a CDD layout of consecutive fields can overlap, and what was encoded (without error) cannot be decoded.
* `C25_descending_order_fails`: Little endian fields given in descending order are packed at the wrong places although they do not overlap: unlike `Message`, `Did` does not sort its fields.
* `C27_long_selector_fails`: C27 does not hold together with the abbreviation of long names (C28): the selector gets its long name back, the signals below it do not get the long name of their selector back, so that no signal of the loaded message has the name they refer to.
* `C28_repeated_name`: With a repeated name the kept names are not kept: both get the name `A_0000`.
* `C28_too_many_names`: C28 without the bound on the number of names is false: a short name of more than 32 characters.
* `C30_half_float_undefined`: C30 fails for 16 bit floats: the member is a `double`, and `memcpy` reads beyond the 16 bit variable the bits were collected in.
* `C30_long_signal_undefined`: C30 fails for integers of more than 64 bits: shifting by more than the width of the variable is undefined, although Python encodes the value.
* `C30_long_signed_not_generated`: No code is generated for signed integers of more than 64 bits.
* `C31_unrepresentable_bound`: C31 fails for bounds that are not representable: the check of a 4 bit signal with maximum 100 accepts 50, which does not fit in 4 bits.
* `C31_negative_maximum`: C31 fails for an unsigned member with negative maximum: `value <= -5u` accepts every value although no raw value is below the maximum.
* `C33_key_error_loses_messages`: C33 is false when an exception is raised: expecting a signal that a received message of that name does not have (a multiplexed one) raises `KeyError`, and the messages looked at before are lost although `discard_other_messages=False`.
* `C34_double_start_leaks`: Starting a running tester starts a second task, and `stop()` stops only one of them.
* `C34_double_enable_leaks`: Enabling a message that is enabled already has the same effect, and neither disabling it nor `stop()` ends the first task.
* `C35_failed_assignment_stale_frame`: C35 is false after a failing assignment: the new value can be read back, but `send()` succeeds and sends the frame with the old one.
* `C35_failed_assignment_sticks`: After it, setting another signal to a valid value fails as well.
* `C36_empty_data_fails`: C36 is false for lines of PCAN versions 2.0 and 2.1 without data that are not remote frames (the length is 0 and nothing follows it): `TypeError` is raised.
* `LogExample.C36_iteration_aborts`: The iteration ends there: later lines are lost.
* `LogExample.C36_truncated_line_aborts`: A PCAN line that is cut off inside a byte raises an exception instead of being skipped.
* `C37_custom_sort_shares_entry`: C37 is false with a user-defined sort function: all such loads share one cache entry, so loading a second file, or the same file with another function, returns the database of the first.
* `C37_unpicklable_fails`: C37 is false with a sort function that cannot be pickled (and an empty cache): the load fails although it succeeds without cache.
* `C40_selectors_missing`: C40 (negation for selectors). A signal that selects other signals has no entry in the inverted tree at all, although it may well be transmitted; so asking for its settings raises `KeyError`.
* `C41_reused_id_hides_difference`: C41 (negation). When the sets of receivers of two messages, which are computed whenever they are read, get the same `id()`s (the first ones do not exist any more when the second ones are computed), the difference between the second ones is not found.
* `C41_not_symmetric`: C41 (finding). Similarity is not symmetric: the difference is relative to the first database.
* `C41_shadowed_message`: C41 (finding). Messages are only compared by frame id: if two messages share one, the dictionary holds the later one, and a difference in the earlier one is not found.
* `KcdExample.C42_several_ids_lost`: A signal under several multiplexer ids comes back with the first of them only, so that frames with the other ids no longer contain it.
* `KcdExample.C42_unused_bit_pattern_lost`: The pattern of unused bits is lost: padded frames differ.
* `MonitorExample.C43_no_signals_not_displayed`: A message without signals is never displayed, although there is no filter.
* `MonitorExample.C43_same_name_fails`: A message with the name of a container that was received and was empty makes the monitor fail.
* `C45_limits_not_kept`: Limits `[0|0]` mean no limits, and a missing limit becomes 0.
* `C45_empty_not_kept`: Empty value tables and units are lost.
* `C45_half_float_fails`: A float signal of 16 bits cannot be written.
* `C45_unreadable`: Written, but not readable: a quotation mark in a unit, a keyword as a name, a negative multiplexer id.
* `C45_fd_not_kept`: CAN FD is lost without a definition of the frame format.
* `C45_zero_cycle_time_not_kept`: A cycle time of 0 is lost.
* `C45_selector_name_not_kept`: The long name of a multiplexer selector is restored for the selector, but not where it is referred to: the signals it selects then belong to no signal of the message.
* `C45_sender_mistaken`: A sender that is not a node gets the long name of a node, if it is the abbreviation of that name.
* `C45_buses_not_kept`: Several buses, and the name of a bus that is not the attribute `DBName`, are lost.
* `C46_not_created`: A tester for a message with a signal that is never more than -5 cannot be created (its initial value is 0), nor one for a message with an unsigned signal with offset 10, nor one with a selector that has a value table without 0 and selects no signal. All these messages can be created and sent with other values.
* `C46_zero_initial_ignored`: An initial value of 0 is ignored: the selector of the message starts with 2.
* `C47_unknown_extension`: C47 is false of the code for unknown extensions: the documentation says that all formats are tried, but `ValueError` is raised whatever the contents are.
* `C48_half_float_not_kept`: A float signal of 16 bits becomes one of 32 bits, and a signed one loses its sign.
* `C48_unreadable`: Written, but not readable: a multiplexer id with a hexadecimal form that starts with a letter, a multiplexed message with several ids, a comment of two lines.
* `C48_unwritable`: Not written: a multiplexed selector, ids of one name with gaps.
* `C48_range_not_kept`: Several messages with the ids of a range become messages of that range: one of them is another one then.
* `C48_selector_not_kept`: A selector keeps no sign, scale, unit and names of values.
* `C48_defaults_not_kept`: Cycle times and SPNs of 0, empty units and comments, names over 32 characters, other senders.
* `C48_truncated_not_kept`: A truncated frame: signals that are in all frames are decoded before the message is written, and are missing after it is read when the selector was not received.
* `C49_extended_ignored`: The kind of the frame is not looked at: an extended frame with a small id is decoded with the message that has this standard id, although the database has no message for extended frames.
* `C49_printed_twice`: Its decoded value is printed twice.
* `C50_wrong_alternative`: The claim is false without distinct names: selectors at the same depth get the same name. Here value 1 of the outer selector chooses the alternative with the signal `Door`, but `Light` of the other alternative is decoded too.
* `C50_lost_signals`: A nested selector in place of the copy of the selector field is removed as if it were the copy, and with it the signals below it: `Door` is decoded for no payload, although it is a signal of the tree.
* `C51_awkward_numbers`: Octal numbers with a sign are read as decimal ones, and a superfluous zero makes a floating point number unreadable, although `float` knows its value.
* `C52_signed_fails`: Signed numbers are read as unsigned ones: the encoding of the data type is not used. The file below describes a signed byte; 0xFF is decoded as 255.
* `C52_field_fails`: A field of 17 bytes is loaded as one byte; the number of elements becomes the least and greatest value.
* `C52_range_fails`: A name for a range of values is dropped.
* `C52_order_fails`: A reference before a data object is moved behind it: the switch is read from the first byte although the file puts the two bytes of the temperature before it.
* `C52_unknown_reference`: A reference to a shared DID that does not exist is left out without an error.
* `C53_references_fails`: References are followed although the location does not allow them.
* `C54_offset_ignored`: C54 is false for PDUs that do not begin at the beginning of the frame: their place is ignored, so the signals are read from the wrong bytes.
* `C54_encoding_fails`: Signals in one's complement or with sign and magnitude are read like those in two's complement. Here the bits of a sign and a magnitude of 1 are read as -127.
* `IeeeExample.C56_long_raw_lost`: Raw values of more than 53 bits get lost.
* `IeeeExample.C56_large_offset_lost`: So do raw values that are small compared to the offset.
* `CConvertExample.C57_one_lost`: It does happen: 43 steps of 0.1 come back as 42.
* `CConvertExample.C57_no_limits_undefined`: Without limits every number is accepted, also those `encode` is undefined for.
* `CHeaderExample.C58_conflicting_types`: The types in a declaration may differ from those in the definition of the function: the C code does not compile.
* `CHeaderExample.C58_init_undefined`: The function `…_init` of a message without data is declared but not defined.
* `CHeaderExample.C58_init_wrong`: An initial temperature of 0 degrees, raw 40, is initialised with the raw value 0, which is -40 degrees.
* `C59_sym_to_kcd`: C59, where it fails: no SYM file with a message can be converted to KCD. The messages of a SYM file have the senders "ECU" and "Peripherals", but the database has no nodes.
* `C59_characters_not_kept`: Characters that cp1252 does not have become question marks, and carriage returns become ends of lines.
* `C59_senders_not_kept`: A conversion to SYM makes the senders "ECU" and "Peripherals" of all others.
* `C59_encodings_differ`: Encodings have to agree: what is written in cp1252 and read in another encoding is not the same.
* `C61_little_endian_fails`: C61 is false for documents that specify little endian headers: cantools encodes such headers, but it decodes all headers as big endian ones, so contained messages are not recognised.
* `C62_alternative_fails`: A signal can have a receiver that does not receive any PDU with this signal.
* `C63_signed64_fails`: A signed number of 64 bits is read as an unsigned number.
* `C63_groups_fail`: The signals of signal groups are missing.
* `C63_fd_fails`: An extract with a CAN FD frame whose identifier has 29 bits is rejected, or the identifier gets 11 bits.
* `C63_package_fails`: A message whose PDU is in another package than `CanIf` is missing.
* `C63_nested_fails`: An extract whose modules are in a package inside of a package cannot be loaded.
* `Listing.Example.C64_comment_fails`: Several lines of a comment look like other properties.
* `Listing.Example.C64_same_name_fails`: Of two messages with the same name, the last one is listed twice.
* `Listing.Example.C64_header_fails`: The frame id of a message with a header id is not listed.
* `Listing.Example.C64_selector_fails`: A message whose selector is missing cannot be listed.
* `Listing.Example.C64_scale_fails`: A scaling factor that is very close to one is not listed.
* `C65_no_kind_unreadable`: A definition may be read without what it is for. It is then written with the kind `None`, and that file cannot be read.
* `C65_special_characters_unreadable`: Special characters are removed from the names of messages, but not here: the file cannot be read.
* `C65_name_mistaken`: A name that is not a signal of the message, but the shortened name of one, becomes the long name.
* `C65_empty_not_kept`: Empty dictionaries are lost.
* `C65_node_name_not_restored`: The long names of nodes are restored for nodes, senders and receivers, but not here: an attribute for the short name of a node is for no node of the database.
* `C66_length_fails`: The bytes that are protected are not those of the protected PDU: they are those of the whole message.
* `C67_shared_id_fails`: C67 fails if a message of another bus has the same frame id: the tester looks up frame ids in the whole database, and ignores what its own bus carries.
* `C67_container_fails`: A database with a container has no tester, whatever the options are.
* `C69_empty_secret_fails`: An empty secret is accepted, but nothing can be authenticated with it.
* `C69_exchange_accepted`: But two bytes of the payload that are five bytes apart can be exchanged in any secured frame.
* `C69_secret_without_effect`: Different secrets may give the same authenticator: a secret of one byte has no effect on ten bytes of data.
* `C70_node_fails`: With a node it is false: the fuzzer also calls the functions of messages that the node does not send, which do not exist, so it cannot be linked.
* `C71_parameter_fails`: A signed signal called `Size` becomes a variable with the name of a parameter: the code does not compile.
* `C71_keyword_fails`: A signal called `Default` becomes a struct member and a variable whose name is a keyword: the code does not compile.
* `C71_node_unused`: With a node, helpers are also defined for functions that are left out.
* `C72_initial_stale`: The initial value is not converted again.
* `C72_selector_choices_fails`: A value table that is assigned to a selector has no effect on the branches: a message constructed with it accepts the new value, the existing one does not.
* `C73_digit_fails`: A file name that begins with a digit makes names of functions that begin with a digit: the code does not compile.
* `C73_given_fails`: A given name is used as it is, even if no names of functions can be made of it.

## Axioms

Output of `#print axioms` for the theorems of MANIFEST.json, grouped by the axioms they depend on.

* none: C26_invalid_id, C27_empty_ids, C33_flush
* `propext`: C24_not_secured, C33_receive, C38_unknown_format, C43_each_frame_once
* `Quot.sound`, `propext`: C05_duplicate_names_unsound, C07_duplicate_names_diverge, C19_get_by_frame_id, C19_key_error_iff, C21_messages, C21_last_addition, C21_lookups, C21_get_by_name, C19_get_by_frame_id, C21_failed_refresh, C22_frame_id_unpack_error, C22_pgn_unpack_error, C22_pgn_from_frame_id_error, C23_profile2_apply_check, C23_profile2_writes, C23_profile2_applicable, C23_profile2_crc_byte, C23_profile5_writes, C23_profile5_crc_bytes, C23_profile5_applicable, C24_verify_total, C26_frame_id_round_trip, C26_distinct, C26_number_round_trip, C29_comment_iff, C29_plain_iff_partial, C30_long_signed_not_generated, C33_key_error_loses_messages, C34_double_start_leaks, C34_double_enable_leaks, C34_enable_sends_for_dut, C38_first_accepting, C38_all_fail, C38_given_format, C59_cp1252_bytes, C64_frames_partial, C69_columns, C69_computes, C69_secret_without_effect, C72_message, C72_history, C72_formats
* `Classical.choice`, `Quot.sound`, `propext`: C01_encode_bit_exact, C01_raw_unique, C01_payload_unique, C02_unused_bits, C02_padding_keeps_signals, C03_round_trip_general, C03_round_trip, C03_raw_round_trip, C03_selector_between_integers, C04_decode_reads_bits, C04_selectors_unique, C04_raw_unique, C04_decode_depends_on_own_bits, C05_strict_check_iff, C05_unreachable_signal_not_checked, C05_negative_frame_id, C06_encode_needs_branch, C06_decode_error, C04_decode_reads_bits, C01_encode_bit_exact, C07_construction_terminates, C08_gather_signals, C09_assert_signals_encodable, C09_assert_errors, C09_unknown_name_not_EncodeError, C10_encode_succeeds_iff, C10_encode_length, C10_strict_encode_succeeds_iff, C10_unsorted_signals_overflow, C11_truncated, C11_truncated_agrees, C12_excess, C12_wrong_size, C13_raw_phys_raw, C13_classes_agree, C13_raw_phys_raw_rounded, C13_double_range, C14_nearest, C15_named_values, C15_duplicate_names, C15_float_named, C16_prune_several, C16_prune_single, C16_idempotent, C16_distinct, C16_table, C16_decode_shows_pruned, C16_encode_old_names, C16_pruned_name_rejected, C16_pruned_message_not_reencodable, C16_pruned_selector_breaks_decoding, C16_single_not_idempotent, C17_container_wire, C17_container_round_trip_partial, C17_strict_iff, C17_little_endian_header_fails, C17_encode_exceeds_container, C18_unpack_iff, C18_unpack_error, C18_decode_container, C18_lookup, C20_by_name, C20_by_frame_id_partial, C20_default_mask, C20_outside_mask, C20_mask_ignored, C21_stale_without_refresh, C21_get_first, C22_frame_id_pack, C22_frame_id_pack_error, C22_frame_id_unpack, C22_unpack_pack, C22_pack_unpack, C22_pgn_pack, C22_pgn_pack_error, C22_pgn_unpack, C22_pgn_unpack_pack, C22_pgn_pack_unpack, C22_pgn_from_frame_id, C23_profile2_burst_partial, C23_profile2_counter, C23_profile5_apply_check, C23_profile5_burst, C24_apply_iff, C24_verify_iff, C24_applied_verifies, C24_apply_idempotent, C24_payload_untouched, C24_replay_rejected, C25_encode_length, C25_encode_succeeds_iff, C25_encode_bit_exact, C25_decode_reads_bits, C25_round_trip, C25_raw_round_trip, C25_too_short, C25_cdd_field_iff, C25_cdd_length, C25_cdd_layout_partial, C25_cdd_overlap, C25_descending_order_fails, C27_ranges, C27_multiplexing_round_trip, C27_long_selector_fails, C28_abbreviation_partial, C28_order_independent, C28_terminates, C28_name_round_trip, C28_repeated_name, C28_too_many_names, C29_quoted_unit, C29_trailing_backslash, C30_generates, C30_pack, C30_pack_is_encode_partial, C30_unpack, C30_unpack_is_decode_partial, C30_round_trip, C30_half_float_undefined, C30_long_signal_undefined, C30_unknown_selector, C31_characterization, C31_partial, C31_physical_partial, C31_unrepresentable_bound, C31_negative_maximum, C31_negative_scale, C31_rounded_bound, C32_distinct, C32_one_per_value, C32_name, C32_identifiers, C33_found, C33_found_discard, C33_timeout, C33_waiting, C33_no_exception, C33_kept_in_order, C33_nothing_lost, C34_stop_partial, C34_stopped_partial, C34_one_task_partial, C34_disable_partial, C34_start_partial, C34_careful, C35_set_partial, C35_update_partial, C35_unknown_signal, C35_history, C35_send_partial, C35_send_last_success, C35_failed_assignment_stale_frame, C35_failed_assignment_sticks, C36_line, C36_file, C36_iterlines, C36_prefix, C36_empty_data_fails, LogExample.C36_iteration_aborts, LogExample.C36_truncated_line_aborts, LogExample.C36_remote_length_skipped, LogExample.C36_mixed_formats, C37_transparent_partial, C37_same_partial, C37_custom_sort_shares_entry, C37_unpicklable_fails, C37_same_mtime_stale, C39_signals_sorted, C39_encode_order_independent, C39_decode_order_independent, C39_encode_ids_independent, C39_decode_ids_independent, C40_tree_mirrors, C40_tree_lists_reachable, C40_inverted_partial, C40_inverted_keys, C40_selectors_missing, C41_terminates, C41_reflexive, C41_reports_differences, C41_similar_of_no_difference, C41_similar_iff_partial, C41_reused_id_hides_difference, C41_not_symmetric, C41_shadowed_message, C42_file_partial, C42_file_frames_partial, KcdExample.C42_carriage_return, KcdExample.C42_control_character, C42_signal_survives, C42_database_survives_partial, C42_frames_survive_partial, C42_auto_length, C42_offset, KcdExample.C42_several_ids_lost, KcdExample.C42_nested_multiplexer_rejected, KcdExample.C42_unused_bit_pattern_lost, KcdExample.C42_unknown_receiver, C43_counters, C43_bounded_partial, C43_sorted, C43_listed, C43_window, C43_display_partial, C43_no_failure_partial, C43_escape, C43_prompt, C43_undecodable, C43_container, MonitorExample.C43_errors_exceed_received, MonitorExample.C43_error_outlives_filter, MonitorExample.C43_no_signals_not_displayed, MonitorExample.C43_reset_hides_signals, MonitorExample.C43_reset_forgets_nothing, MonitorExample.C43_filter_hides_error, MonitorExample.C43_same_name_fails, C44_layout, C44_layout_without_names, C44_read_back, DumpExample.C44_crossed_out_but_valid, C45_round_trip, C45_frames_survive, C45_limits_not_kept, C45_empty_not_kept, C45_half_float_fails, C45_unreadable, C45_fd_not_kept, C45_zero_cycle_time_not_kept, C45_message_dropped, C45_selector_name_not_kept, C45_sender_mistaken, C45_stale_frame_format, C45_buses_not_kept, C45_same_id_shares_comment, C46_all_signals, C46_initial_value, C46_within_limits_partial, C46_created_iff, C46_created_partial, C46_not_created, C46_zero_initial_ignored, C47_known_extension_partial, C47_given_format, C47_extension, C47_unknown_extension, C47_encoding, C48_round_trip, C48_frames_survive, C48_bit_numbers, C48_shared_definition, C48_half_float_not_kept, C48_unreadable, C48_unwritable, C48_range_not_kept, C48_merged, C48_selector_not_kept, C48_defaults_not_kept, C48_truncated_not_kept, C49_output_partial, C49_every_line_partial, C49_error_ends, C49_truncated_aborts, C49_extended_ignored, C49_printed_twice, C49_aborts, C50_frame_partial, C50_wrong_alternative, C50_lost_signals, C51_numbers_partial, C51_scales_partial, C51_no_scaling, C51_linear, C51_awkward_numbers, C51_decreasing, C51_segments, C51_named_interval, C51_half_open, C52_load_partial, C52_decode_partial, C52_by_name, C52_by_identifier, C52_add_replaces, C52_signed_fails, C52_field_fails, C52_range_fails, C52_order_fails, C52_unknown_reference, C53_accepted, C53_follow, C53_children_partial, C53_unique_partial, C53_references_fails, C54_signal_partial, C54_encoding_needed, C54_messages_partial, C54_errors_partial, C54_value, C54_decode_partial, C54_decode_plain_partial, C54_offset_ignored, C54_encoding_fails, C54_system_name_unused, C55_pattern, C55_arguments, C55_picture, C55_success, C55_complete_name_partial, C55_line_bounds_partial, C55_half_byte_partial, C56_unpack, C56_pack, C56_overflow, C56_exact, C56_message, C56_scaling, C56_limits, C56_rejected, C56_decimal, IeeeExample.C56_long_raw_lost, IeeeExample.C56_large_offset_lost, IeeeExample.C56_rejected_within_limits, C57_round_trip, C57_truncated, C57_exact, C57_python, C57_phys_range, C57_phys_safe, CConvertExample.C57_one_lost, CConvertExample.C57_tie, CConvertExample.C57_limit_refused, CConvertExample.C57_no_limits_undefined, C58_declared, C58_defined_partial, C58_functions_distinct_partial, C58_declared_distinct_partial, C58_macros, C58_macros_distinct_partial, C58_structs, C58_structs_used, C58_init_partial, CHeaderExample.C58_conflicting_types, CHeaderExample.C58_init_undefined, CHeaderExample.C58_undeclared, CHeaderExample.C58_functions_clash, CHeaderExample.C58_signals_clash, CHeaderExample.C58_macros_clash, CHeaderExample.C58_init_wrong, C59_dbc_file, C59_sym_file, C59_convert_to_dbc, C59_convert_to_sym, C59_convert_frames, C59_other_formats, C59_load_errors, C59_cp1252, C59_utf8, C59_kcd_file, C59_convert_to_kcd, C59_sym_to_kcd, C59_kcd_load_errors, C59_characters_not_kept, C59_senders_not_kept, C59_encodings_differ, C60_field, C60_apply_decode, C60_secured_partial, C60_freshness_needed, C61_messages_partial, C61_errors, C61_part_partial, C61_decode_partial, C61_round_trip_partial, C61_little_endian_fails, C62_messages, C62_nodes_partial, C62_without_pdu, C62_parts_partial, C62_ecus, C62_known, C62_receivers, C62_alternative_fails, C63_messages_partial, C63_rejects_partial, C63_module_needed, C63_decode_partial, C63_signed64_fails, C63_groups_fail, C63_fd_fails, C63_package_fails, C63_nested_fails, C64_determines_partial, C64_all_partial, C64_succeeds, C64_names, C64_items, C64_all_items, C64_buses, C64_nodes, C64_bus_determines_partial, Listing.Example.C64_comment_fails, Listing.Example.C64_same_name_fails, Listing.Example.C64_header_fails, Listing.Example.C64_selector_fails, Listing.Example.C64_scale_fails, C65_round_trip, C65_without_relations, C65_rest_unchanged, C65_no_kind_unreadable, C65_special_characters_unreadable, C65_name_mistaken, C65_empty_not_kept, C65_node_name_not_restored, C66_loads, C66_rest, C66_messages, C66_others, C66_parts, C66_known, C66_profile5, C66_length_fails, C67_created_iff, C67_unknown_names, C67_messages, C67_unknown_message, C67_start, C67_enabled, C67_received, C67_talk_partial, C67_talk_raw_partial, C67_shared_id_fails, C67_container_fails, C68_dumps, C68_pages, C68_tells, C68_named, C68_unknown, C68_layout, C68_j1939, C68_again, C68_dids, C69_change_rejected, C69_empty_secret_fails, C69_exchange_accepted, C70_never_traps, C70_calls, C70_node_fails, C71_helpers_defined, C71_helpers_used, C71_variables, C71_members, C71_pack_code, C71_unpack_code, C71_parameter_fails, C71_keyword_fails, C71_node_unused, C72_last_assigned, C72_initial_stale, C72_selector_choices_fails, C73_files, C73_told, C73_path, C73_error, C73_unwritable, C73_others, C73_name, C73_digit_fails, C73_given_fails
