{"claims": [
{"property": "C01", "status": "proved", "theorems": ["Verif.Props.C01_no_undefined_behaviour"], "note": "every outcome of the parser model on every buffer; the C++ stack depth is outside the model"},
{"property": "C02", "status": "proved", "theorems": ["Verif.Props.C02_terminates", "Verif.Props.C02_parse_returns"], "note": ""},
{"property": "C03", "status": "partial", "theorems": ["Verif.Props.C03_violated", "Verif.Props.C03_violated_other", "Verif.Props.C03_rfc_accepted_partial"], "note": "violated: 0e1, DEL in strings, \\u0000, one-byte documents are rejected; all other RFC 8259 texts are accepted with their value"},
{"property": "C04", "status": "partial", "theorems": ["Verif.Props.C04_violated", "Verif.Props.C04_violated_other", "Verif.Props.C04_structure_partial"], "note": "violated: non-RFC numbers and surrogates are accepted; the structure outside number and string tokens is that of RFC 8259"},
{"property": "C05", "status": "proved", "theorems": ["Verif.Props.C05_tree_denotes_text", "Verif.Props.C05_unambiguous"], "note": ""},
{"property": "C06", "status": "partial", "theorems": ["Verif.Props.C06_violated", "Verif.Props.C06_string_decoded_partial"], "note": "violated by surrogate pairs; other tokens are decoded as the RFC prescribes"},
{"property": "C07", "status": "partial", "theorems": ["Verif.Props.C07_violated", "Verif.Props.C07_strings_partial"], "note": "violated by lone surrogates; always NUL-free and UTF-8 up to surrogates"},
{"property": "C08", "status": "proved", "theorems": ["Verif.Props.C08_passes_agree"], "note": ""},
{"property": "C09", "status": "partial", "theorems": ["Verif.Props.C09_violated", "Verif.Props.C09_spacing_partial"], "note": "violated for one-byte texts (rejected until whitespace is added); proved for all texts of two bytes or more"},
{"property": "C10", "status": "proved", "theorems": ["Verif.Props.C10_truncation_rejected"], "note": ""},
{"property": "C11", "status": "partial", "theorems": ["Verif.Props.C11_violated", "Verif.Props.C11_prefix_decides_partial"], "note": "violated: bytes after the first NUL are ignored; proved that the result depends only on the bytes before it"},
{"property": "C12", "status": "proved", "theorems": ["Verif.Props.C12_first_wins"], "note": ""},
{"property": "C13", "status": "partial", "theorems": ["Verif.Props.C13_violated", "Verif.Props.C13_position_partial"], "note": "violated: leading whitespace is not counted; correct relative to the first non-blank byte"},
{"property": "C14", "status": "partial", "theorems": ["Verif.Props.C14_violated", "Verif.Props.C14_violated_trailing", "Verif.Props.C14_no_stale_document_partial"], "note": "violated after buffer checks and after kExpectedEndOfFile; holds for every other status"},
{"property": "C15", "status": "proved", "theorems": ["Verif.Props.C15_typed_lookup"], "note": ""},
{"property": "C16", "status": "proved", "theorems": ["Verif.Props.C16_object_iteration", "Verif.Props.C16_map_iteration_sorted"], "note": ""},
{"property": "C17", "status": "partial", "theorems": ["Verif.Props.C17_violated", "Verif.Props.C17_writes_rfc_partial", "Verif.Props.C17_finite_partial"], "note": "violated: strings are not escaped; proved for documents whose strings need no escapes, with whitespace indentation and numbers printed as JSON numbers"},
{"property": "C18", "status": "partial", "theorems": ["Verif.Props.C18_violated", "Verif.Props.C18_violated_silently", "Verif.Props.C18_round_trip_partial", "Verif.Props.C18_strings_exact_partial", "Verif.Props.C18_violated_overflow", "Verif.Props.C18_finite_partial"], "note": "violated by strings that need escapes; exact characterisation for strings, round trip for documents built from such strings C18_finite_partial: for doubles, only finiteness of the numbers is needed; C18_violated_overflow: 1e999 is accepted, written as inf and then refused."},
{"property": "C19", "status": "proved", "theorems": ["Verif.Props.C19_members_in_order"], "note": "for every number printer whose output has no NUL"},
{"property": "C20", "status": "partial", "theorems": ["Verif.Props.C20_violated", "Verif.Props.C20_file_content_partial"], "note": "violated: an existing longer file is not truncated"},
{"property": "C21", "status": "partial", "theorems": ["Verif.Props.C21_violated", "Verif.Props.C21_status_ignores_disk", "Verif.Props.C21_stored_partial"], "note": "violated: the results of the write calls are ignored; proved for schedules without failures"},
{"property": "C22", "status": "proved", "theorems": ["Verif.Props.C22_write_file"], "note": ""},
{"property": "C23", "status": "partial", "theorems": ["Verif.Props.C23_violated", "Verif.Props.C23_violated_hang", "Verif.Props.C23_read_file_partial"], "note": "violated: partial reads overwrite each other, and a shrunk file makes the loop endless; proved for a single complete read, and never out of bounds"},
{"property": "C24", "status": "partial", "theorems": ["Verif.Props.C24_violated", "Verif.Props.C24_files_partial"], "note": "violated: Write produces files that Parse refuses; proved for texts of 2 to 65534 bytes"},
{"property": "C25", "status": "partial", "theorems": ["Verif.Props.C25_violated", "Verif.Props.C25_round_trip_partial", "Verif.Props.C25_array_partial"], "note": "Concrete binary64 with correctly rounding strtod and %.17g. Violated: a document that is one of the numbers 0 to 9 has a one-byte text, which Parse refuses. Every other finite double comes back identical (bits in, bits out), and in arrays all of them do."},
{"property": "C26", "status": "proved", "theorems": ["Verif.Props.C26_validate_agrees"], "note": "for every type of the universe, value, target and default contents"},
{"property": "C27", "status": "partial", "theorems": ["Verif.Props.C27_violated", "Verif.Props.C27_violated_every_vector", "Verif.Props.C27_round_trip_partial"], "note": "violated: std::vector gets an object as its value and cannot be serialized; holds for all types without vectors and with distinct field names"},
{"property": "C28", "status": "partial", "theorems": ["Verif.Props.C28_violated", "Verif.Props.C28_save_load_partial"], "note": "violated: maps are written as empty objects; holds for types without maps and vectors, with texts that need no escaping and exactly printed numbers"},
{"property": "C29", "status": "partial", "theorems": ["Verif.Props.C29_violated", "Verif.Props.C29_optional_partial"], "note": "violated: an optional field whose content lacks a required member is accepted; everything else is proved"},
{"property": "C30", "status": "proved", "theorems": ["Verif.Props.C30_required"], "note": "fields at any place of the list, including user types sharing the value"},
{"property": "C31", "status": "partial", "theorems": ["Verif.Props.C31_violated", "Verif.Props.C31_violated_collapse", "Verif.Props.C31_nothing_lost_partial", "Verif.Props.C31_violated_keys"], "note": "violated: a std::vector in a field is dropped with kOk; holds for types without vectors"},
{"property": "C32", "status": "partial", "theorems": ["Verif.Props.C32_violated", "Verif.Props.C32_target_equals_document_partial", "Verif.Props.C32_maps_merge_partial"], "note": "violated: maps keep previous entries; holds without maps, and the merging done by maps is characterised exactly"},
{"property": "C33", "status": "proved", "theorems": ["Verif.Props.C33_only_named_members"], "note": "field lists whose unnamed entries are user types"},
{"property": "C34", "status": "partial", "theorems": ["Verif.Props.C34_violated", "Verif.Props.C34_empty_partial"], "note": "violated: DeserializeTo and Validate dereference the null root; Write reports it"},
{"property": "C35", "status": "proved", "theorems": ["Verif.Props.C35_map_refines_finite_map"], "note": ""},
{"property": "C36", "status": "proved", "theorems": ["Verif.Props.C36_map_lookup_logarithmic"], "note": ""},
{"property": "C37", "status": "proved", "theorems": ["Verif.Props.C37_remove_exact"], "note": ""},
{"property": "C38", "status": "partial", "theorems": ["Verif.Props.C38_violated_at_root", "Verif.Props.C38_replace_partial"], "note": "violated when the replaced element is the root"},
{"property": "C39", "status": "proved", "theorems": ["Verif.Props.C39_iteration_consistent", "Verif.Props.C39_next_previous_inverse"], "note": ""},
{"property": "C40", "status": "proved", "theorems": ["Verif.Props.C40_text_order"], "note": ""},
{"property": "C41", "status": "partial", "theorems": ["Verif.Props.C41_violated", "Verif.Props.C41_violated_own_argument", "Verif.Props.C41_violated_insert_own", "Verif.Props.C41_violated_after_failure", "Verif.Props.C41_move_leaks", "Verif.Props.C41_histories_partial", "Verif.Props.C41_reachable_partial", "Verif.Props.C41_copy_and_move_partial", "Verif.Props.C41_own_argument_partial", "Verif.Props.C41_find_equal_partial"], "note": "The property is false of the code: an argument that refers to an element of the array itself is read after its storage was released, or after the element was moved away; and after a failed allocation the array believes to have the room it did not get. Proved: all histories of calls whose allocations succeed and whose arguments lie outside the array, for any number of slots in the object, including copies, moves, search and comparison; arguments inside the array when no new storage is needed."},
{"property": "C42", "status": "partial", "theorems": ["Verif.Props.C42_histories_partial", "Verif.Props.C42_extend_partial", "Verif.Props.C42_violated", "Verif.Props.C42_violated_self_append", "Verif.Props.C42_violated_self_assign", "Verif.Props.C42_self_assign_partial", "Verif.Props.C42_violated_append_length", "Verif.Props.C42_violated_own_argument"], "note": "violated: shortening to a local length with SetStringLength leaves a stale capacity and the next write overflows; s += s and b = b corrupt the string; proved for every history without those calls"},
{"property": "C43", "status": "partial", "theorems": ["Verif.Props.C43_violated", "Verif.Props.C43_contents_partial", "Verif.Props.C43_reported_length", "Verif.Props.C43_decodable"], "note": "violated: the reported length is one too small whenever something is encoded; contents are proved right"},
{"property": "C44", "status": "partial", "theorems": ["Verif.Props.C44_violated", "Verif.Props.C44_truncates_partial", "Verif.Props.C44_constructor_partial", "Verif.Props.C44_set_length_violated", "Verif.Props.C44_four_characters_violated"], "note": "violated: s += s fills the capacity, SetStringLength is unchecked; every other operation truncates and terminates"},
{"property": "C45", "status": "proved", "theorems": ["Verif.Props.C45_utf8_round_trip", "Verif.Props.C45_out_of_range"], "note": ""},
{"property": "C46", "status": "partial", "theorems": ["Verif.Props.C46_violated", "Verif.Props.C46_validate_partial"], "note": "violated: surrogate code points encoded as three bytes are accepted"},
{"property": "C47", "status": "proved", "theorems": ["Verif.Props.C47_round_trip", "Verif.Props.C47_any_wide", "Verif.Props.C47_any_text", "Verif.Props.C47_reads_unique", "Verif.Props.C47_string"], "note": "round trip and exact lengths for valid texts; exact result also for malformed texts; the String constructor"},
{"property": "C48", "status": "partial", "theorems": ["Verif.Props.C48_violated", "Verif.Props.C48_violated_wrapping", "Verif.Props.C48_prints_decimal_partial", "Verif.Props.C48_unambiguous", "Verif.Props.C48_unsigned_violated", "Verif.Props.C48_unsigned_partial"], "note": "violated: the smallest integer, and unsigned arguments of 2^31 or more; all other integers are printed in decimal"},
{"property": "C49", "status": "partial", "theorems": ["Verif.Props.C49_violated", "Verif.Props.C49_message_of_next_status", "Verif.Props.C49_message_partial", "Verif.Props.C49_distinct_partial"], "note": "violated: from KFileTooLarge on the message is that of the next status, and the last status reads past the table"},
{"property": "C50", "status": "partial", "theorems": ["Verif.Props.C50_violated", "Verif.Props.C50_text_partial", "Verif.Props.C50_short_positions_partial", "Verif.Props.C50_no_position"], "note": "violated: at most 24 bytes are kept after the message, so long positions are cut; exact text proved"},
{"property": "C51", "status": "partial", "theorems": ["Verif.Props.C51_violated", "Verif.Props.C51_violated_memory", "Verif.Props.C51_partial", "Verif.Props.C51_accepted_partial"], "note": "The code violates the property: the second value of a repeated name is leaked (C51_violated), and an element is leaked if its place in the array cannot be allocated (C51_violated_memory). Proved for all buffers and all failing allocations: no double destruction, and no leak if places can be had and no name is refused. For accepted texts exactly: no leak if and only if no object repeats a name."},
{"property": "C52", "status": "partial", "theorems": ["Verif.Props.C52_violated", "Verif.Props.C52_partial", "Verif.Props.C52_dangling_partial"], "note": "The code violates the property: a SerializeFrom that cannot make its root object leaves a dangling root, destroyed again later. Proved: with root allocations succeeding every history is safe, the document alive and destroyed once, and nothing left if no place fails and no name is refused; after a failing root allocation every touching call is undefined."},
{"property": "C53", "status": "partial", "theorems": ["Verif.Props.C53_violated", "Verif.Props.C53_partial", "Verif.Props.C53_grammar_partial"], "note": "False of the code only because underscores between digits are accepted. Proved: no undefined behaviour on terminated texts, table accesses included; what is accepted is a decimal literal once underscores are removed; the exact grammar."},
{"property": "C54", "status": "partial", "theorems": ["Verif.Props.C54_violated", "Verif.Props.C54_viable_partial"], "note": "violated when whitespace follows the opening quote of a faulty string; holds for the text before that whitespace"},
{"property": "C55", "status": "partial", "theorems": ["Verif.Props.C55_violated", "Verif.Props.C55_statuses_partial"], "note": "violated: six syntax statuses are never returned; the exact set of returned statuses is proved"},
{"property": "C56", "status": "proved", "theorems": ["Verif.Props.C56_missing_member"], "note": ""},
{"property": "C57", "status": "partial", "theorems": ["Verif.Props.C57_violated", "Verif.Props.C57_violated_field", "Verif.Props.C57_violated_map", "Verif.Props.C57_target_partial"], "note": "violated: containers and field lists are overwritten element by element; holds for scalars, for values of the wrong kind and for fields behind the failing one"},
{"property": "C58", "status": "proved", "theorems": ["Verif.Props.C58_read_error", "Verif.Props.C58_open_error"], "note": ""},
{"property": "C59", "status": "partial", "theorems": ["Verif.Props.C59_violated", "Verif.Props.C59_violated_small", "Verif.Props.C59_partial"], "note": "False of the code: 0e309 is computed as 0 times infinity, and exponent parts of -309 or less give 0 although the number is representable. Proved: every unsigned RFC 8259 number is accepted, and with an exponent part between -308 and 308 its value is the denoted number in exact arithmetic. Missing: rounding errors."},
{"property": "C60", "status": "partial", "theorems": ["Verif.Props.C60_violated", "Verif.Props.C60_partial", "Verif.Props.C60_document_partial"], "note": "The code violates the property: a failing allocation for a number, boolean or null is reported as kExpectedJsonValue. Proved for all failing allocations: the status is kException, kExpectedJsonValue or the one with enough memory, and a success yields the same document."},
{"property": "C61", "status": "partial", "theorems": ["Verif.Props.C61_violated", "Verif.Props.C61_to_utf8_partial", "Verif.Props.C61_to_utf16_partial", "Verif.Props.C61_to_utf16_bmp_partial"], "note": "violated: a surrogate pair is written when one unit is left; proved for the conversion to UTF-8, and to UTF-16 with one more unit of room or without characters beyond U+FFFF"},
{"property": "C62", "status": "partial", "theorems": ["Verif.Props.C62_violated", "Verif.Props.C62_violated_bytes", "Verif.Props.C62_count_partial", "Verif.Props.C62_limit_partial", "Verif.Props.C62_neighbours_partial", "Verif.Props.C62_previous_partial", "Verif.Props.C62_next_partial"], "note": "violated: malformed texts are read past the terminator; proved for valid texts and for the functions with a limit"},
{"property": "C63", "status": "proved", "theorems": ["Verif.Props.C63_fits"], "note": "For every double, with the C17 description of %.17g modelled concretely; 24 is attained."},
{"property": "C64", "status": "partial", "theorems": ["Verif.Props.C64_violated", "Verif.Props.C64_nearest_partial"], "note": "Violated by 0e5, which is refused. Proved for all other RFC 8259 numbers of at least two characters: nearest, ties to even, overflow threshold. That strtod rounds correctly is part of the trusted base; the theorem ties the text handed to it and the sign handling to the number denoted."},
{"property": "C65", "status": "proved", "theorems": ["Verif.Props.C65_find_char", "Verif.Props.C65_least_limit"], "note": "Texts shorter than 2 GB; the limit INT_MIN is undefined behaviour (decrement)."},
{"property": "C66", "status": "proved", "theorems": ["Verif.Props.C66_hash"], "note": ""},
{"property": "C67", "status": "proved", "theorems": ["Verif.Props.C67_find_unquoted"], "note": "For the quote itself the function returns the first closing quote; not part of the property."},
{"property": "C68", "status": "proved", "theorems": ["Verif.Props.C68_find_text"], "note": "The empty text is never found (-1)."},
{"property": "C69", "status": "partial", "theorems": ["Verif.Props.C69_violated", "Verif.Props.C69_find_text_caseless_partial"], "note": "The first character is compared with regard to case. Proved: soundness, and completeness for texts that do not begin with a letter."},
{"property": "C70", "status": "proved", "theorems": ["Verif.Props.C70_compare"], "note": "The limit INT_MIN is undefined behaviour (decrement)."},
{"property": "C71", "status": "partial", "theorems": ["Verif.Props.C71_violated", "Verif.Props.C71_violated_large", "Verif.Props.C71_numbered_partial", "Verif.Props.C71_value_partial"], "note": "Not asymmetric with leading zeros; numbers modulo 2^32. Proved: a strict total order on texts whose numbers have no leading zeros and are below 2^32."},
{"property": "C72", "status": "proved", "theorems": ["Verif.Props.C72_read_integer"], "note": "The buffer does not overlap the text."},
{"property": "C73", "status": "partial", "theorems": ["Verif.Props.C73_violated", "Verif.Props.C73_read_float_partial", "Verif.Props.C73_safe_partial"], "note": "Signs in exponents are not read. Proved: all other numbers; memory safety for every text."},
{"property": "C74", "status": "partial", "theorems": ["Verif.Props.C74_violated", "Verif.Props.C74_quoted_partial", "Verif.Props.C74_word_partial", "Verif.Props.C74_safe_partial"], "note": "The limit counts backslashes and the closing quote. Proved: quoted texts shorter than the limit, words, memory safety for every text."},
{"property": "C75", "status": "proved", "theorems": ["Verif.Props.C75_type_codes"], "note": ""},
{"property": "C76", "status": "partial", "theorems": ["Verif.Props.C76_violated", "Verif.Props.C76_read_type_partial", "Verif.Props.C76_round_trip_partial"], "note": "Codes of one or two characters are printed as the empty text. Proved: the value and consumption; the round trip for three and four characters."},
{"property": "C77", "status": "proved", "theorems": ["Verif.Props.C77_hex_strings"], "note": ""},
{"property": "C78", "status": "proved", "theorems": ["Verif.Props.C78_paths"], "note": ""},
{"property": "C79", "status": "partial", "theorems": ["Verif.Props.C79_violated", "Verif.Props.C79_zero", "Verif.Props.C79_undefined", "Verif.Props.C79_undefined_tiny", "Verif.Props.C79_undefined_scaled", "Verif.Props.C79_near_partial", "Verif.Props.C79_scaled_partial"], "note": "Violated for 1/3 whatever Log and Exp do; undefined behaviour from 512 on (C++17) and near 1.2e-38; -0.0 and subnormals are written as 0.0. Proved: from 1e-4 to 1e5 an RFC number with the right sign within 10^-5 + 2^-23, the same float if 16 x is an integer; elsewhere relative to the quotient computed with Log and Exp, whose accuracy is C98."},
{"property": "C80", "status": "partial", "theorems": ["Verif.Props.C80_violated", "Verif.Props.C80_exponent_length", "Verif.Props.C80_safe_partial", "Verif.Props.C80_length_partial", "Verif.Props.C80_strings_partial"], "note": "Violated where an exponent is printed: only the length of the exponent is returned. Proved: termination, bounds and frame for all floats with defined shifts; the length from 1e-4 to 1e5."},
{"property": "C81", "status": "partial", "theorems": ["Verif.Props.C81_violated", "Verif.Props.C81_violated_exponent", "Verif.Props.C81_exact_partial", "Verif.Props.C81_error_partial", "Verif.Props.C81_bound_partial", "Verif.Props.C81_cutoff", "Verif.Props.C81_overflow"], "note": "Violated by 0.12 and 3e-1. Proved: integers below 2^53 with an exponent part from 0 to 22 are read as the nearest double; numbers between 10^-306 and 10^306 with a relative error of at most (2a+b+2)/2^52 for a digits before and b behind the point; exponent parts beyond 308 give infinity or NaN, below -308 zero."},
{"property": "C82", "status": "proved", "theorems": ["Verif.Props.C82_ownership"], "note": "Objects with superNode, leftSubnode, rightSubnode, owningMap and balance in a store shared by all maps; every assignment of the code is one update. Histories without InsertReplaceMapElement, which is C86."},
{"property": "C83", "status": "proved", "theorems": ["Verif.Props.C83_neighbours"], "note": "Same store; the answers are characterised by the keys of the members alone."},
{"property": "C84", "status": "partial", "theorems": ["Verif.Props.C84_reservation_partial", "Verif.Props.C84_reservation_violated"], "note": "Violated: a reservation for 2 in the map {1}, used after 3 has been inserted, overwrites the pointer to 3, which is lost. A reservation that is used at once has exactly the effect of InsertMapElement."},
{"property": "C85", "status": "proved", "theorems": ["Verif.Props.C85_purge"], "note": "Deleting an object twice or using it after deletion is undefined in the model, so that it does not happen is part of the statement."},
{"property": "C86", "status": "partial", "theorems": ["Verif.Props.C86_replace_partial", "Verif.Props.C86_replace_violated"], "note": "Violated: ReplaceMapElement does not update the root pointer; when the root is replaced and the caller deletes the replaced object, the next use of the map (or its destruction) reads a deleted object. Proved for histories in which no call replaces the root."},
{"property": "C87", "status": "proved", "theorems": ["Verif.Props.C87_select"], "note": ""},
{"property": "C88", "status": "proved", "theorems": ["Verif.Props.C88_cyclic"], "note": ""},
{"property": "C89", "status": "partial", "theorems": ["Verif.Props.C89_exchange_partial", "Verif.Props.C89_violated", "Verif.Props.C89_same"], "note": "Violated: Exchange(x, x) sets x to zero. Proved for two different variables."},
{"property": "C90", "status": "proved", "theorems": ["Verif.Props.C90_powers"], "note": ""},
{"property": "C91", "status": "proved", "theorems": ["Verif.Props.C91_floor"], "note": ""},
{"property": "C92", "status": "partial", "theorems": ["Verif.Props.C92_signed_partial", "Verif.Props.C92_violated"], "note": "Violated: PositiveFloor(8388609) is 8388608. Proved up to 2^23."},
{"property": "C93", "status": "partial", "theorems": ["Verif.Props.C93_both_partial", "Verif.Props.C93_violated"], "note": "Violated: FloorCeil(8388609) stores 8388608 as the floor. Proved up to 2^23."},
{"property": "C94", "status": "partial", "theorems": ["Verif.Props.C94_frac_partial", "Verif.Props.C94_negative_partial", "Verif.Props.C94_negative_frac_partial", "Verif.Props.C94_violated"], "note": "Violated: Frac(-1e-20) is one. Proved exactly for nonnegative floats; for negative ones up to rounding."},
{"property": "C95", "status": "proved", "theorems": ["Verif.Props.C95_extreme", "Verif.Props.C95_nan", "Verif.Props.C95_signs", "Verif.Props.C95_infinite"], "note": ""},
{"property": "C96", "status": "partial", "theorems": ["Verif.Props.C96_exp_partial", "Verif.Props.C96_relative_partial", "Verif.Props.C96_zero", "Verif.Props.C96_violated", "Verif.Props.C96_undefined"], "note": "Violated: Exp is zero from 90 on, because two elements of the table have no initializer. Proved from -2^31 to 90; beyond that the conversion to int32 is undefined."},
{"property": "C97", "status": "partial", "theorems": ["Verif.Props.C97_log_partial", "Verif.Props.C97_subnormal", "Verif.Props.C97_violated"], "note": "Violated by subnormal floats and infinity. Proved for normal floats, zeros and floats with a sign bit."},
{"property": "C98", "status": "partial", "theorems": ["Verif.Props.C98_scaled_partial", "Verif.Props.C98_mid_partial", "Verif.Props.C98_absolute_partial", "Verif.Props.C98_violated", "Verif.Props.C98_undefined"], "note": "Violated: 0.000105 is written as 0.0001; normal floats up to 0.9999e-37 are not written at all. Proved from 1 on (with the exception of the undefined shift of C79) and below 1e-4 where the exponent found is not -38; from 1e-4 to 1 with an absolute error."},
{"property": "C99", "status": "partial", "theorems": ["Verif.Props.C99_read_file_partial", "Verif.Props.C99_violated", "Verif.Props.C99_violated_hang"], "note": "Violated: the loop never ends if the file is shorter than the size asked for. Proved otherwise, for every schedule."},
{"property": "C100", "status": "partial", "theorems": ["Verif.Props.C100_write_file_partial", "Verif.Props.C100_violated", "Verif.Props.C100_violated_hang"], "note": "Violated from 4 GiB on: the loop never ends, because the number of bytes is cut to 32 bits. Proved below."},
{"property": "C101", "status": "proved", "theorems": ["Verif.Props.C101_file_content"], "note": ""},
{"property": "C102", "status": "partial", "theorems": ["Verif.Props.C102_unchanged_partial", "Verif.Props.C102_violated", "Verif.Props.C102_violated_windows", "Verif.Props.C102_violated_linux", "Verif.Props.C102_violated_reachable"], "note": "Violated: on Windows writing an absent document empties the file; on both systems an object with a name that is not in its map is written in part, and serializing a type whose named field is followed by a map makes such an object. Proved for files that cannot be opened, and for an absent document on Linux."},
{"property": "C103", "status": "proved", "theorems": ["Verif.Props.C103_wide_name", "Verif.Props.C103_back", "Verif.Props.C103_round_trip", "Verif.Props.C103_not_injective"], "note": ""},
{"property": "C104", "status": "partial", "theorems": ["Verif.Props.C104_buffers_partial", "Verif.Props.C104_violated", "Verif.Props.C104_violated_source", "Verif.Props.C104_violated_limit"], "note": "Violated: the source is read one unit too far; the largest limit allocates no units. Proved for other limits and sources with one more unit."},
{"property": "C105", "status": "partial", "theorems": ["Verif.Props.C105_round_trip_partial", "Verif.Props.C105_violated", "Verif.Props.C105_read_error"], "note": "Violated by texts of more than 65534 bytes. Proved for texts of 2 to 65534 bytes."},
{"property": "C106", "status": "proved", "theorems": ["Verif.Props.C106_table", "Verif.Props.C106_parse", "Verif.Props.C106_write", "Verif.Props.C106_history", "Verif.Props.C106_same", "Verif.Props.C106_not_open"], "note": ""},
{"property": "C107", "status": "partial", "theorems": ["Verif.Props.C107_violated", "Verif.Props.C107_violated_changes", "Verif.Props.C107_violated_digit", "Verif.Props.C107_documents_partial", "Verif.Props.C107_texts_partial"], "note": "Violated by texts with escapes, and by a single digit followed by a space. Proved for readable documents with any indentation by whitespace, and for doubles: texts without backslashes and overflow that are more than one digit."},
{"property": "C108", "status": "partial", "theorems": ["Verif.Props.C108_violated", "Verif.Props.C108_violated_json", "Verif.Props.C108_brackets_partial", "Verif.Props.C108_nothing_else", "Verif.Props.C108_depth_partial", "Verif.Props.C108_files_partial", "Verif.Props.C108_write"], "note": "Violated: nested arrays need a level each. Proved: an accepted text needs exactly as many levels as it is deep; any text needs no more than it has opening brackets, plus one; 65536 levels suffice for files; writing needs no more than parsing; a limited stack has no other effect than overflow."},
{"property": "C109", "status": "partial", "theorems": ["Verif.Props.C109_violated", "Verif.Props.C109_violated_first", "Verif.Props.C109_write_partial"], "note": "Violated: the exception thrown by the array of indentation characters meets a noexcept function, and the program is terminated. Proved if no request fails, without indentation, or for scalars; otherwise a beginning of the text has been written."},
{"property": "C110", "status": "partial", "theorems": ["Verif.Props.C110_violated", "Verif.Props.C110_pow_partial", "Verif.Props.C110_one", "Verif.Props.C110_undefined"], "note": "Violated: Pow of zero and of negative numbers has undefined behaviour, and Pow(1 - 2^-24, 2^24) is 1/e^2 instead of 1/e. Proved for normal x with an error that grows with the exponent (4.1e-7 |y| and 2e-7 |y log x|)."},
{"property": "C111", "status": "partial", "theorems": ["Verif.Props.C111_violated", "Verif.Props.C111_sin_partial", "Verif.Props.C111_both", "Verif.Props.C111_symmetry", "Verif.Props.C111_zero", "Verif.Props.C111_special", "Verif.Props.C111_unbounded", "Verif.Props.C111_coefficients"], "note": "Violated: the coefficients of the sine are exchanged (error 2.3e-6 at 0.0245), and Sin(6898179375104) is below -10^27. Proved with 3e-6 instead of 1e-6 for arguments up to 200000."},
{"property": "C112", "status": "partial", "theorems": ["Verif.Props.C112_violated", "Verif.Props.C112_sin_partial", "Verif.Props.C112_undefined"], "note": "Violated: undefined from 53 million on. Proved with 4e-7 instead of 1e-6 for arguments up to 50 million."},
{"property": "C113", "status": "partial", "theorems": ["Verif.Props.C113_violated", "Verif.Props.C113_tan_partial", "Verif.Props.C113_plain_partial", "Verif.Props.C113_infinite"], "note": "Violated: Tan of the float nearest to pi/2 is infinite. Proved for arguments up to 200000 with the error of C111, without SIMD up to 50 million."},
{"property": "C114", "status": "partial", "theorems": ["Verif.Props.C114_violated", "Verif.Props.C114_sqrt_partial", "Verif.Props.C114_small", "Verif.Props.C114_special"], "note": "Violated: Sqrt of infinity is NaN with SSE, and subnormal numbers have the root zero. Proved for normal numbers with 1e-6 (SSE) and 9e-6 (without SIMD)."},
{"property": "C115", "status": "partial", "theorems": ["Verif.Props.C115_violated", "Verif.Props.C115_inverse_partial", "Verif.Props.C115_small", "Verif.Props.C115_special"], "note": "Violated: InverseSqrt of infinity is NaN with SSE and infinity without; of subnormal numbers it is infinity. Proved for normal numbers with 9e-7 (SSE) and 8e-6 (without SIMD)."},
{"property": "C116", "status": "proved", "theorems": ["Verif.Props.C116_arctan", "Verif.Props.C116_nan"], "note": "Arctan(NaN) converts a NaN to int32, which is undefined."},
{"property": "C117", "status": "partial", "theorems": ["Verif.Props.C117_violated", "Verif.Props.C117_arctan2_partial", "Verif.Props.C117_axes", "Verif.Props.C117_undefined"], "note": "Violated: Arctan(2^-126, 0) is 0 instead of pi/2, and Arctan(-2^-126, -1) is pi instead of -pi. Proved for coordinates above 2^-126 in magnitude, and with one of them smaller if the other one is at least 2^-104."},
{"property": "C118", "status": "proved", "theorems": ["Verif.Props.C118_arcsin", "Verif.Props.C118_beyond", "Verif.Props.C118_nan"], "note": "Beyond the domain (up to 2^63) it is half of pi."},
{"property": "C119", "status": "partial", "theorems": ["Verif.Props.C119_violated", "Verif.Props.C119_arccos_partial", "Verif.Props.C119_zero", "Verif.Props.C119_beyond"], "note": "Violated: Arccos(-0.0) is -pi/2. Proved for all other floats between -1 and 1 with 4e-6 (SSE) and 1.2e-5 (without SIMD)."},
{"property": "C120", "status": "proved", "theorems": ["Verif.Props.C120_constants", "Verif.Props.C120_limits"], "note": "The literals and quotients are rounded as IEEE 754 prescribes."},
{"property": "C121", "status": "proved", "theorems": ["Verif.Props.C121_arithmetic", "Verif.Props.C121_nearest", "Verif.Props.C121_rounding", "Verif.Props.C121_floor", "Verif.Props.C121_signs", "Verif.Props.C121_scalar", "Verif.Props.C121_others", "Verif.Props.C121_eight"], "note": "SSE without SSE4. For the signs no component is NaN. That floor and ceiling are those of numbers is C91 to C93."},
{"property": "C122", "status": "proved", "theorems": ["Verif.Props.C122_store", "Verif.Props.C122_load", "Verif.Props.C122_round_trip", "Verif.Props.C122_smear", "Verif.Props.C122_eight", "Verif.Props.C122_constant"], "note": "SSE."},
{"property": "C123", "status": "proved", "theorems": ["Verif.Props.C123_select", "Verif.Props.C123_compare"], "note": "SSE."},
{"property": "C124", "status": "partial", "theorems": ["Verif.Props.C124_violated", "Verif.Props.C124_negate_partial"], "note": "Violated: the negative of +0 is +0. Proved for all other components."},
{"property": "C125", "status": "proved", "theorems": ["Verif.Props.C125_dot3", "Verif.Props.C125_dot4", "Verif.Props.C125_plane", "Verif.Props.C125_sum", "Verif.Props.C125_symmetric"], "note": "SSE without SSE4."},
{"property": "C126", "status": "proved", "theorems": ["Verif.Props.C126_cross", "Verif.Props.C126_last", "Verif.Props.C126_self", "Verif.Props.C126_anti"], "note": "SSE."},
{"property": "C127", "status": "proved", "theorems": ["Verif.Props.C127_vector", "Verif.Props.C127_point", "Verif.Props.C127_project"], "note": "SSE."},
{"property": "C128", "status": "partial", "theorems": ["Verif.Props.C128_violated", "Verif.Props.C128_root_partial", "Verif.Props.C128_special", "Verif.Props.C128_others"], "note": "Violated: the root of a positive subnormal number is minus infinity. Proved for normal numbers and zeros, with a relative error of at most 1e-6."},
{"property": "C129", "status": "proved", "theorems": ["Verif.Props.C129_unpack", "Verif.Props.C129_pack", "Verif.Props.C129_round_trip", "Verif.Props.C129_order", "Verif.Props.C129_arithmetic", "Verif.Props.C129_store", "Verif.Props.C129_load"], "note": "SSE."},
{"property": "C130", "status": "partial", "theorems": ["Verif.Props.C130_violated", "Verif.Props.C130_float", "Verif.Props.C130_int_partial", "Verif.Props.C130_truncate", "Verif.Props.C130_saturate"], "note": "Violated with NEON, where VecConvertInt32 drops the fraction. Proved for SSE."},
{"property": "C131", "status": "partial", "theorems": ["Verif.Props.C131_violated", "Verif.Props.C131_violated_large", "Verif.Props.C131_keys_partial"], "note": "Violated by FileNameKey for numbers with leading zeros and numbers from 2^32. Proved for the other classes, and for FileNameKey if numbers are below 2^32 without superfluous zeros."},
{"property": "C132", "status": "partial", "theorems": ["Verif.Props.C132_violated", "Verif.Props.C132_violated_large", "Verif.Props.C132_keyed_map_partial"], "note": "Violated by FileNameKey (see C131): elements cannot be found again. Proved for the other classes, and for FileNameKey with the same restriction."},
{"property": "C133", "status": "proved", "theorems": ["Verif.Props.C133_blocks_owned", "Verif.Props.C133_lengths"], "note": "All histories, without s = s and s += s (see C42); the lengths also without SetStringLength to 1..15."},
{"property": "C134", "status": "partial", "theorems": ["Verif.Props.C134_violated", "Verif.Props.C134_violated_size", "Verif.Props.C134_violated_deserialize", "Verif.Props.C134_memory_partial"], "note": "Violated: Resize deletes the old block before it requests the new one, and += changes the size before. Proved: ownership, if no request fails in an assignment to a string that has a block."},
{"property": "C135", "status": "partial", "theorems": ["Verif.Props.C135_violated", "Verif.Props.C135_refused", "Verif.Props.C135_large_partial"], "note": "Violated: the allocated size of a string of 2^31 - 68 bytes is negative, and the document is refused with kException. Proved, with absence of overflow, for buffers of up to 2^31 - 67 bytes."},
{"property": "C136", "status": "partial", "theorems": ["Verif.Props.C136_violated", "Verif.Props.C136_overflow", "Verif.Props.C136_indentation_partial"], "note": "Violated: lengths of 2^31 and more overflow the number of elements. Proved if depth times length is at most 1431655000."},
{"property": "C137", "status": "proved", "theorems": ["Verif.Props.C137_sound", "Verif.Props.C137_complete", "Verif.Props.C137_exclusive"], "note": "Both directions between the status and position of the parser and a separate grammar of faulty texts (Spec/Faults)."},
{"property": "C138", "status": "proved", "theorems": ["Verif.Props.C138_parse_steps", "Verif.Props.C138_same", "Verif.Props.C138_climb"], "note": "A second version of the parser counts steps; it is shown to have the same results."},
{"property": "C139", "status": "partial", "theorems": ["Verif.Props.C139_violated", "Verif.Props.C139_explosion", "Verif.Props.C139_size_partial"], "note": "Violated by repeated names: every level of 15 bytes doubles the output. Without repeated names the output is linear (with indentation quadratic)."},
{"property": "C140", "status": "proved", "theorems": ["Verif.Props.C140_array_appends", "Verif.Props.C140_string_appends"], "note": "Potential argument with the growth factor 3/2 of both containers."},
{"property": "C141", "status": "proved", "theorems": ["Verif.Props.C141_exp", "Verif.Props.C141_arctan"], "note": "Real numbers of Mathlib; e to 20 digits, arctangents by their series."},
{"property": "C142", "status": "partial", "theorems": ["Verif.Props.C142_violated", "Verif.Props.C142_entries_partial", "Verif.Props.C142_error"], "note": "Violated: 160 entries are not nearest, which are listed; exactly the others are. No entry is off by more than 9.3e-8."},
{"property": "C143", "status": "proved", "theorems": ["Verif.Props.C143_builtin_language", "Verif.Props.C143_builtin_failure", "Verif.Props.C143_builtin_refused"], "note": "Parser generic in the number reader; the model of the other configuration is another instance."},
{"property": "C144", "status": "proved", "theorems": ["Verif.Props.C144_builtin_rfc", "Verif.Props.C144_configurations_differ"], "note": "Inclusion of grammars; witnesses [1_0], 0e1 and [1+2]."},
{"property": "C145", "status": "partial", "theorems": ["Verif.Props.C145_violated", "Verif.Props.C145_builtin_round_trip_partial"], "note": "Violated: all zeros and subnormal floats are written as 0.0. The part that holds: everything but the numbers comes back, and each number is the value of the literal that was printed for it."},
{"property": "C146", "status": "partial", "theorems": ["Verif.Props.C146_violated", "Verif.Props.C146_violated_each", "Verif.Props.C146_static_hash_partial", "Verif.Props.C146_nul"], "note": "Violated where char is signed, for every text with exactly one byte that is not ASCII. The part that holds: ASCII texts, and all texts where char is unsigned."},
{"property": "C147", "status": "partial", "theorems": ["Verif.Props.C147_violated", "Verif.Props.C147_unsigned_violated", "Verif.Props.C147_least_violated", "Verif.Props.C147_numbers_partial"], "note": "Violated: unsigned numbers pass through the signed functions, String<>(4294967295U) is -1. The part that holds: numbers the signed type represents, except the least."},
{"property": "C148", "status": "partial", "theorems": ["Verif.Props.C148_violated", "Verif.Props.C148_middle_violated", "Verif.Props.C148_numbers_partial", "Verif.Props.C148_relative_partial"], "note": "Violated: printing the least normal float is undefined, and 0.000105 comes back as 0.0001. The part that holds: all documents whose numbers are zero, below 2^-127, or from 1.0002e-37 to 2^127 (in C++17 outside 511 to 100001); the relative error is at most 3e-5 except from 0.0001 to 1, where the absolute error is at most 1.1e-5."},
{"property": "C149", "status": "partial", "theorems": ["Verif.Props.C149_violated", "Verif.Props.C149_drift_violated", "Verif.Props.C149_steady_partial"], "note": "Violated: 104299.3359375 is written as 1.0429927e5, then 1.0429921e5, and has lost 1.4 after twenty cycles. The part that holds: documents whose numbers are multiples of 1/16 below 512 (below 1e5 where the overflowing shift is defined), or become zero."},
{"property": "C150", "status": "partial", "theorems": ["Verif.Props.C150_violated", "Verif.Props.C150_whole_partial"], "note": "Violated: a million is written as 0.99999e6. The part that holds: whole numbers below 512, and below 1e5 where the overflowing shift is defined."},
{"property": "C151", "status": "proved", "theorems": ["Verif.Props.C151_document", "Verif.Props.C151_objects", "Verif.Props.C151_requests"], "note": ""},
{"property": "C152", "status": "proved", "theorems": ["Verif.Props.C152_pack", "Verif.Props.C152_rest"], "note": ""},
{"property": "C153", "status": "partial", "theorems": ["Verif.Props.C153_violated", "Verif.Props.C153_vectors_partial", "Verif.Props.C153_scalars_partial", "Verif.Props.C153_memory_partial", "Verif.Props.C153_negate_partial", "Verif.Props.C153_extreme_partial", "Verif.Props.C153_truncate_partial"], "note": "Violated by division, fused products, negation and minima of zeros, scalar functions, and sums and rounding with SSE4; the other functions are equal."},
{"property": "C154", "status": "partial", "theorems": ["Verif.Props.C154_violated", "Verif.Props.C154_div_partial", "Verif.Props.C154_tiny"], "note": "Violated: 1 / 1 is 0x3F7FFFC0 on NEON. Proved with 1e-5 for normal divisors; for divisors below 2^-128 the result is an infinity of the wrong sign, or NaN."},
{"property": "C155", "status": "partial", "theorems": ["Verif.Props.C155_violated", "Verif.Props.C155_root_partial"], "note": "Violated: larger errors, minus infinity for a subnormal number, NaN for infinity. Proved with 2e-5 for normal numbers and zero."},
{"property": "C156", "status": "proved", "theorems": ["Verif.Props.C156_fused", "Verif.Props.C156_transform"], "note": ""},
{"property": "C157", "status": "partial", "theorems": ["Verif.Props.C157_violated", "Verif.Props.C157_cross_partial"], "note": "Violated: the fused difference leaves a rest, and the fourth component is a copy of the second. Proved: error bound of the three components."},
{"property": "C158", "status": "proved", "theorems": ["Verif.Props.C158_round"], "note": ""},
{"property": "C159", "status": "proved", "theorems": ["Verif.Props.C159_sums", "Verif.Props.C159_everywhere", "Verif.Props.C159_dot3", "Verif.Props.C159_project"], "note": ""},
{"property": "C160", "status": "proved", "theorems": ["Verif.Props.C160_time"], "note": "The unit of time is one step of Model/WriteCost."},
{"property": "C161", "status": "proved", "theorems": ["Verif.Props.C161_iteration", "Verif.Props.C161_single_calls"], "note": "The unit of time is one step of Model/MapCost."},
{"property": "C162", "status": "proved", "theorems": ["Verif.Props.C162_update", "Verif.Props.C162_history"], "note": "The unit of time is one step of Model/MapCost."},
{"property": "C163", "status": "proved", "theorems": ["Verif.Props.C163_empty"], "note": "Calls of RemoveSubtree or DeleteSubtree, and the depth of their recursion."},
{"property": "C164", "status": "proved", "theorems": ["Verif.Props.C164_defined"], "note": "Memory is available; failing requests are the subject of C51-C53."},
{"property": "C165", "status": "partial", "theorems": ["Verif.Props.C165_violated", "Verif.Props.C165_violated_effect", "Verif.Props.C165_first_data_stay", "Verif.Props.C165_again_partial"], "note": "The code violates the property for user types. The exact effect is proved for all user types with named fields; the property is proved for all other types."},
{"property": "C166", "status": "partial", "theorems": ["Verif.Props.C166_violated", "Verif.Props.C166_violated_struct", "Verif.Props.C166_writable_partial"], "note": "The code violates the property when a map is serialized onto a value whose members are listed. Proved for all other histories."},
{"property": "C167", "status": "partial", "theorems": ["Verif.Props.C167_violated", "Verif.Props.C167_map_forgets", "Verif.Props.C167_owned_partial"], "note": "The code violates the property. Proved for all histories: no undefined behaviour, the document is alive and destroyed once; nothing leaks unless a name is refused or a map is serialized onto a value."},
{"property": "C168", "status": "proved", "theorems": ["Verif.Props.C168_earlier_reads", "Verif.Props.C168_any_target", "Verif.Props.C168_statuses"], "note": "For default-initialised variables that differ in the added fields only (Compatible)."},
{"property": "C169", "status": "proved", "theorems": ["Verif.Props.C169_upgrade", "Verif.Props.C169_downgrade", "Verif.Props.C169_accepts", "Verif.Props.C169_nothing_changed"], "note": "Types as in C27_round_trip_partial, which is the scope of the statement."},
{"property": "C170", "status": "proved", "theorems": ["Verif.Props.C170_again", "Verif.Props.C170_again_any", "Verif.Props.C170_ordered"], "note": ""},
{"property": "C171", "status": "partial", "theorems": ["Verif.Props.C171_result", "Verif.Props.C171_exception", "Verif.Props.C171_ordered", "Verif.Props.C171_objects_partial", "Verif.Props.C171_enough", "Verif.Props.C171_violated"], "note": "The last part is violated: if the copy of the name of a new element of an ObjectMap throws (C4Json.h:1016) the element is lost (C171_violated). Proved: at most one element is lost, and none if no exception is reported. The other parts hold in full."},
{"property": "C172", "status": "partial", "theorems": ["Verif.Props.C172_save_partial", "Verif.Props.C172_edit_partial", "Verif.Props.C172_saved_again", "Verif.Props.C172_violated"], "note": "Violated: a std::vector is written as an empty object, with kOk; Example 6 writes a file that it cannot load. Proved for user types without maps and vectors, for binary64."},
{"property": "C173", "status": "proved", "theorems": ["Verif.Props.C173_layers", "Verif.Props.C173_validates", "Verif.Props.C173_last", "Verif.Props.C173_shape_needed"], "note": "For every type and every number implementation with the law for signs. The shape asked for is that of Validate, except that optional members that are present need all their required members (C173_shape_needed shows why)."},
{"property": "C174", "status": "proved", "theorems": ["Verif.Props.C174_kept", "Verif.Props.C174_exact", "Verif.Props.C174_same_file", "Verif.Props.C174_files", "Verif.Props.C174_on_disk"], "note": "For binary64 numbers. Types with std::vector are excluded by the statement (C27, C28 and C172 show what happens to them)."},
{"property": "C175", "status": "proved", "theorems": ["Verif.Props.C175_same_data", "Verif.Props.C175_same_status", "Verif.Props.C175_members", "Verif.Props.C175_elements"], "note": "For every type and every number implementation with the law for signs. C175_members and C175_elements show which texts mean the same."},
{"property": "C176", "status": "proved", "theorems": ["Verif.Props.C176_outcome", "Verif.Props.C176_survives", "Verif.Props.C176_silent", "Verif.Props.C176_stable", "Verif.Props.C176_plain"], "note": "An exact description of what the code does; C27 and C31 are the properties this behaviour violates."},
{"property": "C177", "status": "proved", "theorems": ["Verif.Props.C177_time", "Verif.Props.C177_text", "Verif.Props.C177_product"], "note": "The construction of the temporary objects of the element type (const T temp {}) is not counted. By C26 Deserialize returns the same status; its own time is not modelled."},
{"property": "C178", "status": "proved", "theorems": ["Verif.Props.C178_file", "Verif.Props.C178_survives", "Verif.Props.C178_memory", "Verif.Props.C178_stable", "Verif.Props.C178_plain"], "note": "Built-in configuration as in C174 (doubles that are written with enough digits). Not covered: repeated field names and fields without a name that are not user types."},
{"property": "C179", "status": "proved", "theorems": ["Verif.Props.C179_lost", "Verif.Props.C179_exact", "Verif.Props.C179_array"], "note": "Configuration with JSON4C4_USE_SYSTEM_DOUBLE_STRING_CONVERSIONS. Texts and member names are those of C18_finite_partial (code points that Parse can read back unescaped)."},
{"property": "C180", "status": "proved", "theorems": ["Verif.Props.C180_lost"], "note": "The other numbers of the document are in the ranges of C148 (printing is defined)."},
{"property": "C181", "status": "proved", "theorems": ["Verif.Props.C181_lost", "Verif.Props.C181_exact", "Verif.Props.C181_builtin"], "note": "The exact form is for the configuration with the C library; without it, other numbers are in the ranges of C148."},
{"property": "C182", "status": "partial", "theorems": ["Verif.Props.C182_forged", "Verif.Props.C182_violated", "Verif.Props.C182_partial", "Verif.Props.C182_quotes_partial"], "note": "Violated by the code: C182_forged gives the text for all data, C182_violated is the negation. The part that holds is for all texts without quotation marks (C182_quotes_partial); C182_partial is for those that also come back themselves."},
{"property": "C183", "status": "partial", "theorems": ["Verif.Props.C183_repeated", "Verif.Props.C183_kinds", "Verif.Props.C183_violated", "Verif.Props.C183_partial"], "note": "Violated by the code: C183_repeated and C183_kinds tell what happens instead, C183_violated is the negation. The part that holds is for field lists without repeated names."},
{"property": "C184", "status": "proved", "theorems": ["Verif.Props.C184_again", "Verif.Props.C184_cycle", "Verif.Props.C184_exact"], "note": "C184_again is for all number operations; the other two, which load the file, are for the configuration with the C library."},
{"property": "C185", "status": "partial", "theorems": ["Verif.Props.C185_fewer", "Verif.Props.C185_forged", "Verif.Props.C185_violated", "Verif.Props.C185_partial", "Verif.Props.C185_tokens_partial"], "note": "Violated by the code: C185_forged gives the text for all lists of texts, C185_violated is the negation. C185_fewer is one half of the statement, for all texts; C185_partial is the statement for texts without quotation marks; C185_tokens_partial tells for these when the file is accepted and what is read."},
{"property": "C186", "status": "partial", "theorems": ["Verif.Props.C186_violated", "Verif.Props.C186_names", "Verif.Props.C186_partial"], "note": "Violated by the code: C186_violated is the negation, with the document [\"\\\",\\\"\"]. C186_names is a second witness, with a name that has a backslash. C186_partial is the statement for documents whose texts have no quotation marks and whose names need no escapes."},
{"property": "C187", "status": "partial", "theorems": ["Verif.Props.C187_breaks", "Verif.Props.C187_violated", "Verif.Props.C187_shrinks", "Verif.Props.C187_partial", "Verif.Props.C187_doubles_partial"], "note": "Violated by the code: C187_breaks gives for every n a document that fails after n times, C187_violated is the negation. C187_shrinks says what happens to arrays of texts without quotation marks. C187_partial is the statement, with the document staying the same, for readable documents other than a single number."}
]}
