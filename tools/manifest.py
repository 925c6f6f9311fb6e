#!/usr/bin/env python3
"""Write MANIFEST.json from the table below.  Run from anywhere."""
import json, os
N = "C4."
P, Q = "proved", "partial"
CLAIMS = [
 ("C01", P, "C01_write_dec", ""),
 ("C02", P, "C02_write_hex C02_write_oct C02_write_bin", ""),
 ("C03", P, "C03_digits", ""),
 ("C04", P, "C04_unsigned C04_itoa", ""),
 ("C05", Q, "C05_refuted C05_itoa_short_partial", "false of the code: '-' is stored before the size check; the partial theorem states exactly what is written"),
 ("C06", P, "C06_write_dec C06_write_hex C06_write_oct C06_write_bin", ""),
 ("C07", P, "C07_utoa C07_utoa_padded", "num_digits < 2^32-3 (see C09)"),
 ("C08", P, "C08_itoa C08_itoa_radix C08_itoa_padded", "num_digits < 2^32-3 (see C09)"),
 ("C09", Q, "C09_refuted C09_refuted_out_of_bounds C09_size_partial C09_exact C09_exact_signed C09_exact_nonneg C09_least", "false of the code: num_digits is truncated to 32 bits; size and contents of the buffer are proved for every number of digits"),
 ("C10", P, "C10_read_dec C10_read_hex C10_read_oct C10_read_bin", ""),
 ("C11", P, "C11_atou", ""),
 ("C12", P, "C12_atoi", ""),
 ("C13", P, "C13_unsigned C13_signed C13_unsigned_text C13_signed_text", "num_digits < 2^32-3 for the buffer forms (see C09); every padding for the text forms"),
 ("C14", Q, "C14_refuted C14_no_overflow_partial C14_digits_exact C14_atoi_exact", "false of the code for the minimum of 32/64-bit types; proved for every other in-range value"),
 ("C15", P, "C15_overflows_unsigned C15_safe", ""),
 ("C16", Q, "C16_overflows_signed C16_refuted C16_safe_partial", "exactness proved in full; memory safety false for the string \"-\" and proved for every other"),
 ("C17", Q, "C17_unsigned C17_signed_partial C17_refuted", "signed: false for the string \"-\" (out-of-bounds read), proved for every other string; unsigned proved in full"),
 ("C18", P, "C18_atoi_first C18_atou_first C18_atoi_first_iff C18_atou_first_iff", "both ways"),
 ("C19", Q, "C19_refuted C19_int_partial C19_uint_partial C19_int_exact C19_uint_exact", "false for numbers with a plus sign (accepted by the span scanner only); proved for every other number; with a plus sign the result is always npos"),
 ("C20", P, "C20_string_write C20_string_fits C20_string_read C20_container_read C20_string_roundtrip C20_first_view C20_first_copy C20_char C20_to_chars_sub C20_bool_read C20_bool", "reading a bool: strings shorter than 2^31 (see C28)"),
 ("C21", Q, "C21_refuted C21_refuted_trailing C21_bool_partial C21_bool_exact C21_blank", "false with blanks before or after the first run; proved for a string that is one run; exactly: it succeeds if and only if the whole string is a bool text"),
 ("C22", Q, "C22_refuted_letter C22_refuted_upper C22_refuted_exponent C22_refuted_stale C22_refuted_language C22_value_partial C22_computed_partial C22_float_partial C22_float_power_partial C22_refuted_rounding C22_refuted_overflow C22_exact C22_no_exponent_iff C22_accepts_exact", "false for letter digits, non-zero exponents (zero with a large one is read as not-a-number), a result variable not holding zero, and more digits than the precision; proved otherwise, over exact rationals and with the arithmetic of float and double; over exact rationals all texts are classified: which are accepted, and what is computed for every number, exponent and previous value of the variable"),
 ("C23", P, "C23_msb C23_lsb C23_msb11 C23_lsb11 C23_msb_builtin C23_lsb_builtin", "the portable fallbacks, the intrinsics (their documented results are trusted) and the compile-time versions"),
 ("C24", Q, "C24_ipow_refuted C24_ipow_exact C24_ipow_wraps_partial C24_ipow_overflow C24_ipow_neg_partial C24_ipow_base", "exact whenever the power can be represented; reduced modulo the width except for unsigned 16-bit bases above 2^15 (overflow of int, refuted) and signed types of 32 and 64 bits (undefined); negative exponents except the smallest (refuted)"),
 ("C25", P, "C25_contiguous_mask C25_contiguous_mask11", ""),
 ("C26", P, "C26_mem_repeat", ""),
 ("C27", P, "C27_mem_overlaps", ""),
 ("C28", Q, "C28_compare C28_antisymm C28_trans C28_operators C28_compare_char_partial C28_char_refuted C28_char_exact C28_char_other", "string/string comparison proved in full; compare(char) is false for views longer than 2^31 (length truncated to int), proved below that; what happens for longer views is proved too: wrong only if the view begins with the character"),
 ("C29", P, "C29_first C29_last C29_find C29_select", ""),
 ("C30", Q, "C30_count_char C30_count_pattern_partial leftmostOccs_max C30_refuted", "count(char) proved; count(pattern) proved for non-empty patterns, does not terminate for the empty pattern"),
 ("C31", P, "C31_triml C31_trimr C31_trim", ""),
 ("C32", P, "C32_begins_ends C32_begins_ends_num C32_begins_ends_char C32_strip", ""),
 ("C33", Q, "C33_selectors_partial C33_refuted C33_partition C33_partition_sub C33_exact C33_elsewhere", "the assertions of offs/left_of/right_of admit boundary arguments that leave the view (refuted); proved with those excluded; C33_exact says which arguments give views inside; views that are no parts: what is left or right of them, exactly"),
 ("C34", P, "C34_split C34_split_empty Spec.SplitsInto.unique", ""),
 ("C35", P, "C35_next_split", ""),
 ("C36", P, "C36_pop_right C36_pop_left C36_pop_right_skip C36_pop_left_skip C36_basename_dirname C36_path C36_extensions", ""),
 ("C37", P, "C37_reverse C37_reverse_sub C37_reverse_range C37_ranges C37_twice", ""),
 ("C38", P, "C38_erase C38_erase_range C38_positions", ""),
 ("C39", P, "C39_replace_char C39_replace_set", ""),
 ("C40", Q, "C40_replace_all_partial leftmostOccs_unique C40_refuted C40_npos", "pos == npos, admitted by the first assertion, copies out of bounds (refuted); proved for every other position; what happens for npos is proved"),
 ("C41", P, "C41_pair_range C41_pair_range_esc C41_pair_range_nested C41_nested_same", "equal delimiters: never a range"),
 ("C42", P, "C42_unquoted", ""),
 ("C43", P, "C43_int C43_uint", ""),
 ("C44", P, "C44_is_unsigned_integer C44_is_integer C44_is_real C44_is_number C44_integer_is_number", ""),
 ("C45", P, "C45_real_span C45_digits", ""),
 ("C46", Q, "C46_is_super C46_is_super_null C46_overlaps_partial C46_refuted C46_exact", "overlaps reports true for an empty view inside another (refuted); exact for non-empty views; when overlap is reported is proved for all views"),
 ("C47", P, "C47_first_of_any", ""),
 ("C48", Q, "C48_case C48_case_signed_partial C48_refuted C48_fill C48_copy_from", "fill and copy_from proved; toupper/tolower proved where char is unsigned, and for strings without bytes 128..254 where char is signed (undefined otherwise)"),
 ("C49", P, "C49_cat C49_cat_args C49_prefix C49_view Arg.writes", "argument writers: integers in every form, strings, chars, bools, boolalpha, pointers"),
 ("C50", P, "C50_catsep C50_catsep_args", ""),
 ("C51", P, "C51_format C51_format_args Spec.Subst.unique", ""),
 ("C52", P, "C52_resizing C52_resizing_fits C52_append C52_args", ""),
 ("C53", P, "C53_uncat_text C53_uncatsep_text C53_uncatsep C53_unformat C53_delimiter_needed", "unformat for format strings whose marks are followed by a delimiter or the end; needed, see C53_delimiter_needed"),
 ("C54", Q, "C54_refuted C54_left_partial C54_right_partial C54_exact", "a buffer longer than the text and shorter than the width is overrun (refuted); proved otherwise; proved that in all remaining cases the padding is written outside of the buffer"),
 ("C55", P, "C55_write C55_read C55_roundtrip", ""),
 ("C85", Q, "C85_refuted C85_value_partial C85_exact", "the returned size is always 1 (refuted); the value read is right; right exactly if gap and value are one character together"),
 ("C84", Q, "C84_pointer_roundtrip C84_refuted_count C84_refuted_failure C84_first_value_partial C84_first_exact", "round trip proved; from_chars_first(T**) returns 1 instead of the count and reads an uninitialized variable on failure (refuted); all texts are classified"),
 ("C56", P, "C56_encode C56_writer C56_size", ""),
 ("C57", P, "C57_roundtrip", ""),
 ("C58", P, "C58_bounded C58_valid C58_exact C58_refuted", "C58_refuted: what happens outside the precondition"),
 ("C59", Q, "C59_refuted C59_refuted_unsigned C59_valid_partial C59_accepts C59_unsigned_exact", "'=' is accepted anywhere, and with unsigned char the table is read out of bounds (refuted); proved: accepts exactly letters and '=' in multiples of four; with unsigned char the first character that is neither a letter nor = decides (C59_unsigned_exact)"),
 ("C86", P, "C86_decode", ""),
 ("C60", P, "C60_decode_code_point C60_decode_string", ""),
 ("C61", P, "C61_original", "unsigned index types"),
 ("C62", P, "C62_span C62_spanrs C62_elements C62_is_subspan C62_same_span", "unsigned index types"),
 ("C63", Q, "C63_equal14 C63_less C63_operators C63_refuted_cpp11 C63_equal11_partial C63_spans11_partial C63_exact11", "false for operator== in C++11 builds with spans of different size; proved otherwise; the C++11 operator is described exactly: prefixes compare equal, and a right side that is a proper prefix of the left is overrun"),
 ("C87", Q, "C87_refuted C87_assert_partial C87_end C87_exact", "false for 32- and 64-bit index types: the sum wraps; proved where it does not; exactly what the assertion admits: C87_exact"),
 ("C64", P, "C64_cat_dump C64_cat_dump_short C64_catsep_dump C64_catsep_dump_short C64_format_dump C64_empty_buffer", ""),
 ("C65", Q, "C65_refuted C65_refuted_empty C65_one_call_partial C65_nothing_lost_partial C65_exact_partial C65_two_calls_partial C65_history_exact", "false: arguments after one that does not fit are sent again by the retry; with an empty buffer strings are lost. Proved: a sufficient first buffer, nothing lost with non-empty buffers, exact if nothing that fits follows something that does not, two calls suffice; and exactly what is sent for any arguments and history of buffers, and when success is reported"),
 ("C66", Q, "C66_refuted_catsep C66_refuted_format C66_refuted_surplus C66_catsep_one_call_partial C66_catsep_exact_partial C66_format_one_call_partial C66_format_exact_partial C66_catsep_history_exact C66_format_history_exact", "false: an argument that does not fit is lost if a string follows; proved for a sufficient first buffer and for arguments (and separator) that are values with non-empty text; and exactly which pieces are lost for any arguments and history of buffers"),
 ("C67", P, "C67_blocks C67_reports C67_realloc_reports C67_clear", "sizes within the address space; see C88 for others"),
 ("C68", Q, "C68_refuted C68_linear_partial C68_arealloc C68_linear_exact", "the linear resource does not copy when it moves a block (refuted); proved for blocks that keep their place, and for arealloc in full; C68_linear_exact says which blocks keep their place"),
 ("C69", Q, "C69_refuted_acquire C69_refuted_destructor C69_refuted_borrowed C69_refuted_release C69_refuted_leak C69_lifetime_partial C69_start_partial C69_acquire_partial C69_empty_partial C69_history_exact", "acquire and release on a constructed object dispatch to the object itself (refuted); proved for construction and destruction; proved exactly for all histories of calls what the parent is asked for and what it gets back"),
 ("C70", P, "C70_counts C70_no_leak", "ssize_t taken without bounds"),
 ("C71", Q, "C71_refuted C71_refuted_wrap C71_lifo_partial C71_exact", "false unless blocks are released in reverse order; proved for that order; exactly which blocks overlap is proved for all orders of release"),
 ("C72", Q, "C72_refuted C72_nesting_partial C72_counts_of_current_partial C72_exact C72_exact_use", "ScopedMemoryResourceCounts(m) restores m (refuted); proved without it or with m the current resource; C72_exact gives the resource after any program"),
 ("C88", Q, "C88_refuted C88_allocate_partial C88_reallocate_partial", "proved for allocate; for reallocate all cases are classified: false only for the last block with an end that wraps around the address space"),
 ("C89", Q, "C89_refuted C89_allocate_partial C89_reallocate_partial", "false for reallocate, which then counts as a release (C89_reallocate_partial); proved for allocate"),
 ("C90", Q, "C90_refuted C90_aligned_partial C90_exact", "false unless the alignment divides sizeof(T); proved for that case; proved: aligned if and only if the bytes before the block are a multiple of the alignment"),
 ("C91", Q, "C91_refuted C91_refuted_single C91_refuted_release C91_only_block_partial C91_place_partial C91_overlap_exact", "false; proved: the only live block keeps its place, and where the new block is in every case; C91_overlap_exact says exactly which live blocks and which next block are overlapped by a block reallocated within the array."),
 ("C92", Q, "C92_refuted C92_request_partial C92_smaller", "false if and only if the product wraps"),
 ("C93", Q, "C93_refuted C93_release_partial C93_exact", "false for an empty block at the end of the array; proved for non-empty blocks under reverse-order release; proved: only a block at the very end of the array is passed on"),
 ("C73", Q, "C73_e2str C73_str2e C73_refuted C73_roundtrip_partial C73_first", "false if a name without prefix is another full name; proved for tables without such a clash; proved without that condition: the first symbol spelled like the string is taken, an error if there is none"),
 ("C74", Q, "C74_refuted C74_refuted_shadow C74_find_partial C74_first", "false: every prefix of a full name is accepted; proved: what is found has the string as spelling or prefix, exact if no name extends it; proved exactly: the first symbol that is spelled like the string or begins with it is found"),
 ("C75", P, "C75_bm2str", "also: an error happens only if a bit has no symbol of its own, and then for every buffer"),
 ("C76", Q, "C76_refuted C76_refuted_prefix C76_roundtrip_partial C76_exact C76_roundtrip_iff", "false for names with digits and for names that are prefixes of others; proved otherwise; for names that are identifiers the outcome of reading back is given exactly: refused if a written name has a digit, else the OR of the values of the first symbols spelled like or beginning with the written names; the round trip holds exactly if that OR is the bits"),
 ("C94", Q, "C94_refuted C94_stream_partial C94_stream_zero C94_exact", "false: bits without a symbol are dropped silently; proved if every bit has a symbol, and C94_exact says for all bits which symbols are written"),
 ("C95", Q, "C95_refuted C95_single_bits_partial C95_exact", "false for overlapping composites; proved if every bit has a symbol of its own, and C95_exact says exactly which bits can be written"),
 ("C96", Q, "C96_refuted C96_safe_partial C96_undefined", "undefined if and only if the first item is empty (assertions off); proved for all other strings"),
 ("C97", Q, "C97_refuted C97_numbers_partial C97_letters", "false for hexadecimal numbers with letters, which are all refused (C97_letters); proved for the others"),
 ("C77", P, "C77_chunks C77_fnv1a C77_bijective C77_one_byte", "also: one differing byte gives a different hash"),
 ("C78", Q, "C78_refuted C78_szconv_partial C78_negative", "false for negative values and types that are not narrower (what they become is proved, C78_negative); proved otherwise"),
 ("C79", P, "C79_sequence", ""),
 ("C80", P, "C80_min C80_mult C80_min_mult C80_ubuf", ""),
 ("C83", Q, "C83_refuted C83_refuted_half C83_shifts_partial C83_refuted_always C83_reached_exact C83_seeded", "false for the default state and for every state with its top bit set; proved for the others; with an odd increment an undefined call is reached within 2^64 calls from every state; exactly the generators with the top bit of the state clear and a state no call changes never come to one, of those constructed with a number only that of 0"),
 ("C100", Q, "C100_refuted C100_refuted_iff C100_terminator_partial", "false: the terminator is hashed too; proved what is hashed"),
 ("C101", Q, "C101_refuted C101_refuted_parity C101_refuted_linear C101_period_partial C101_exact C101_seeded C101_seeded_period", "false for seeds given as a number: the increment is even; proved for odd increments; the exact period is proved for every state and increment, and so for every seed"),
 ("C102", P, "C102_period C102_mix", ""),
 ("C103", P, "C103_injective C103_nonzero C103_period", ""),
 ("C104", P, "C104_wchars", ""),
 ("C105", Q, "C105_refuted C105_char_partial C105_exact", "false for wchar_t: the count is in bytes; proved for char; the number for characters of any size: C105_exact"),
 ("C81", Q, "C81_refuted_make C81_refuted_destroy C81_make_room_partial C81_make_room_pos_partial C81_destroy_room_partial C81_make_room_to C81_destroy_room_to C81_destroy_nothing", "false for empty gaps and types that are not trivial; proved otherwise; removing nothing leaves all elements moved from"),
 ("C99", Q, "C99_refuted C99_all_partial C99_exact", "false whenever elements remain: nothing is destroyed; proved if all are removed; the memory after removing some: C99_exact"),
 ("C106", Q, "C106_refuted C106_refuted_alias C106_construct C106_construct_args C106_copy_construct_partial C106_copy_assign_partial C106_move_construct_partial C106_move_assign_partial C106_fill_construct_partial C106_fill_assign C106_destroy C106_copy_assign_exact C106_copy_construct_exact C106_move_assign_exact C106_move_construct_exact C106_trivial_exact", "false for overlapping ranges; proved for disjoint ones; what happens for overlapping ranges is proved for all ranges"),
 ("C107", Q, "C107_refuted C107_large_partial C107_exact", "false for gaps smaller than the number of elements; proved for others; the memory for smaller gaps: C107_exact"),
 ("C82", Q, "C82_refuted C82_refuted_swap C82_inplaceFunction_targets_partial C82_inplaceFunction_once_partial C82_inplaceFunction_all_partial C82_throw_assign C82_throw_swap C82_throw_construct", "false if a target's constructor throws in an assignment or swap; proved for all other programs; what an exception leaves behind is proved for all functions with targets"),
 ("C98", Q, "C98_refuted C98_bool_partial C98_exact", "false for empty functions; proved for programs that convert none; exactly which functions are true is proved for all programs without exceptions"),
 ("C108", P, "C108_leading_zeroes C108_umul128", ""),
 ("C109", P, "C109_table", ""),
 ("C110", P, "C110_compute_float C110_monotone", ""),
 ("C111", P, "C111_eight_digits C111_value C111_zeros", ""),
 ("C112", P, "C112_of C112_small C112_powers C112_compare C112_top C112_digits", ""),
 ("C113", P, "C113_longest C113_exists", ""),
 ("C114", Q, "C114_refuted C114_rounded_partial", "false for texts with about 2^28 digits and a huge exponent, which is read only up to a limit; proved for all other texts"),
 ("C115", P, "C115_nan C115_inf C115_refused", ""),
 ("C116", Q, "C116_refuted C116_decimal_partial C116_hex_partial C116_words C116_prefix C116_others", "false: text after a number is ignored, a plus sign is refused; proved for decimal and hexadecimal numbers, inf and nan, texts that begin with a number, and texts that begin with none of these"),
 ("C117", Q, "C117_refuted C117_decimal_partial C117_hex_partial C117_words C117_plus C117_binary_octal C117_none", "false for numbers with plus sign and for binary and octal ones; proved for decimal and hexadecimal numbers, inf and nan, and what happens is proved for the rest: npos with a plus sign, 0 for binary and octal, npos without a number"),
 ("C118", P, "C118_out_of_range", ""),
 ("C119", P, "C119_rounds_to_nearest C119_any_direction", ""),
 ("C120", Q, "C120_double_refuted C120_double_partial C120_float C120_double_exact", "false for double: the bounds are smaller than documented; proved that they are never too large; C120_double_exact gives the bound exactly for double: 2^52 / 5^p up to the power 13 and 2^52 / 5^(p+1) from 14 on."),
 ("C121", Q, "C121_refuted C121_std_partial C121_std_request C121_std_hex_partial C121_snprintf_partial", "false: the size returned for a buffer that is too small is not the size needed, in hexadecimal format a buffer of less than two characters is overrun, snprintf needs one character more; proved what remains"),
 ("C122", Q, "C122_refuted C122_cat C122_catsep C122_format C122_resizing C122_append C122_args", "false for hexadecimal format with an empty container (undefined); proved for all writers that satisfy C121 as far as it holds"),
 ("C123", Q, "C123_refuted C123_std_partial C123_right_partial C123_left_exact", "false: aligned to the left, snprintf's terminating zero remains in the padding; proved with std::to_chars, and for alignment to the right; what alignment to the left gives: C123_left_exact"),
 ("C124", Q, "C124_refuted C124_hex_refuted C124_shortest_partial C124_digits_partial C124_words_partial", "false without std::to_chars (six digits by default) and in hexadecimal format; proved for shortest texts, for 17 (9) digits, infinities and NaN"),
 ("C125", Q, "C125_refuted C125_partial C125_silent C125_warning", "false for exceptions without logging and callback (uninitialized message); proved for all other flags"),
 ("C126", Q, "C126_refuted C126_partial C126_blocks_partial", "false if objects are not destroyed in reverse order, or a copy is made; proved that each restores what it found; C126_blocks_partial proves the whole property for programs with nested blocks, however they are left."),
 ("C127", Q, "C127_refuted C127_partial C127_absent_exact C127_later C127_present_exact", "false: the first answer is kept, the name of the program is searched too, a status of 1024 characters or more is read out of bounds; proved for the first call if the line is found; proved what happens with other contents of the file and at later calls; With TracerPid: in what is read: the result for every number after it, with any blanks and sign, and undefined behaviour exactly if it is not an int."),
 ("C128", Q, "C128_refuted C128_partial C128_keyword_exact", "false for enumerations and unions with MSVC; enumerations and unions keep their keyword: C128_keyword_exact"),
 ("C129", Q, "C129_standard_refuted C129_compare C129_standard_partial C129_standard_exact", "the order is that of csubstr::compare for all operators; it is not that of std::string for characters from 128 on if char is signed (refuted); exactly when the order is not that of the standard strings: C129_standard_exact"),
 ("C130", P, "C130_round_trip", ""),
 ("C131", Q, "C131_refuted C131_refuted_trailing C131_exact_partial C131_whole_partial C131_partial C131_decimal_partial C131_first_partial C131_first_none C131_other_partial C131_count_partial", "false for a view that only begins with a number, if no zero follows the view, for a view beginning with a vertical tab, form feed or the like, and from 10^10 characters on; proved otherwise; The number of characters that the conversion reports is that of the characters converted."),
 ("C132", Q, "C132_ptr C132_array_partial C132_array_refuted C132_ptrs C132_compare C132_char_partial C132_char_refuted C132_empty", "false for arrays with characters after the zero (they are all viewed) and, for single characters, views of 2^31 characters on; proved otherwise"),
 ("C133", Q, "C133_numbers_partial C133_pointers_partial C133_null C133_read_back C133_pointers_refuted C133_pointers_exact", "addresses from 2^63 on are written as negative numbers (refuted); widths below 2^32-3 (see C09); any address reads back; texts of the other addresses: C133_pointers_exact"),
 ("C134", Q, "C134_aalloc C134_refuted C134_exact", "proved for aalloc; a request of no bytes through a memory resource may be reported as lack of memory (refuted); through any chain of resources, exactly: C134_exact"),
 ("C135", Q, "C135_refuted C135_stacked_partial C135_reallocFails C135_defined", "false after a reallocation that fails, which uncounts the block in all counting resources it passed through (C89); proved for histories without those"),
 ("C136", Q, "C136_equality C136_own_partial C136_refuted C136_exact C136_counts C136_back C136_ne C136_select", "proved for allocators with their own resource; false for those using the global resource, and select_on_container_copy_construct copies; exactly what the resources count, and which objects go back to where they are from, is proved for allocators of both kinds with reallocation; C136_select: what select_on_container_copy_construct gives, and when that is the default constructed allocator."),
 ("C137", Q, "C137_difference_partial C137_difference_refuted C137_sum C137_difference_exact C137_max_iff peak_le_iff", "current and total counts exact; the maximum of a difference can be too small (refuted), that of a sum is an upper bound; C137_difference_exact gives the maximum of the difference exactly and C137_max_iff says when it is that of the calls alone."),
 ("C138", Q, "C138_sizes_partial C138_refuted", "exact if and only if the index type has the value; false for other sizes (refuted)"),
 ("C139", P, "C139_access C139_same_span", "for spans of non-negative size within memory"),
 ("C140", Q, "Tight.C140_pair_partial Tight.C140_distinct Tight.C140_tight Tight.C140_refuted", "the default constructor for two equal non-empty types leaves the second uninitialized (refuted); proved otherwise"),
 ("C141", Q, "C141_uncat C141_uncatsep C141_unformat_partial C141_refuted C141_uncat_iff C141_uncatsep_iff C141_unformat_exact", "uncat and uncatsep proved; unformat does not compare the literal text of the format and can count more characters than there are (refuted), the values it stores are proved; all three both ways: npos only if there are no such numbers"),
 ("C142", P, "C142_is_aligned", ""),
 ("C143", Q, "C143_discard C143_seed C143_refuted_seed C143_pcg_partial C143_refuted_device C143_device_partial C143_equal C143_device_exact", "false for pcg, whose seed keeps the increment, and for the seeds from a random device, which never have the highest bit; proved otherwise; the seeds from a random device are exactly the numbers below 2^63"),
 ("C144", Q, "C144_number_partial C144_wraps C144_none C144_refuted", "false for 64-bit types: some numbers beyond 2^64 wrap around, and which ones do and to what is proved (C144_wraps); the claim is proved for narrower types and for numbers below 2^64 plus the largest power of the base below 2^64"),
 ("C145", P, "C145_integers C145_pointers", ""),
 ("C146", P, "C146_read C146_json C146_none C146_exists C146_general C146_hex C146_flags C146_values", "The value hex of chars_format is accepted, but reads decimal numbers without exponent (C146_hex).; the flags are independent and the values of chars_format stand for what they say (C146_flags, C146_values)"),
 ("C147", Q, "C147_same_partial C147_latin1 C147_refuted", "False for texts with wide characters whose low byte is a letter of nan or infinity: they are compared after conversion to char, so that U+016E, a, U+016E is read as NaN. Proved for all other texts."),
 ("C148", Q, "C148_same_partial C148_latin1 C148_refuted", "False for texts with wide characters whose low byte is a digit or a letter: ch_to_digit converts them to unsigned char, so that U+0131 is read as 1. Proved for all other texts."),
 ("C149", P, "C149_memory C149_fits C149_zero", "numbers without zero limbs on top"),
 ("C150", Q, "C150_refuted C150_refuted_terminate C150_construct_partial C150_make_room_partial C150_noexcept_partial", "False: the objects constructed before the exception are not destroyed, and functions declared noexcept end the program."),
 ("C151", P, "C151_construct C151_copy_move C151_destroy C151_scalars", ""),
 ("C152", Q, "C152_refuted C152_make_room_partial C152_assertions", "False for room after the last element, which an assertion rejects."),
 ("C153", Q, "C153_refuted C153_iff_partial", "False for types with pointers to data members: the memory is cleared."),
 ("C154", Q, "C154_refuted C154_construct_partial", "False for types that can be constructed with the resource first and last: the call is ambiguous."),
 ("C155", Q, "C155_refuted_trim C155_refuted_negative C155_iff_partial", "False: trimming all elements is rejected; negative sizes and sums that wrap around are accepted."),
 ("C156", P, "C156_commute C156_elements C156_constructed", ""),
 ("C157", P, "FF.L32.C157_same", ""),
 ("C158", P, "FF.L32.C158_of FF.L32.C158_small FF.L32.C158_powers FF.L32.C158_compare FF.L32.C158_top FF.L32.C158_digits FF.L32.C158_memory FF.L32.C158_fits FF.L32.C158_zero", "numbers without zero limbs on top"),
 ("C159", Q, "C159_accepts_partial C159_selects C159_selects_foreign C159_removes C159_mistaken_outside C159_refuted", "accepted calls characterised exactly; the property is false of the code: offs accepts one element too many, right_of the end, left_of the end with the position included, reverse_range exchanged ends, and sums with npos wrap (erase then writes past the end)"),
 ("C160", Q, "C160_atou C160_atou_first C160_atoi_partial C160_atoi_first_partial C160_atof_partial C160_atof_first C160_overflows C160_read_partial C160_refuted", "true for atou, atou_first, atof_first and overflows; false for atoi, atoi_first, atof and read_*: the refused texts are characterised exactly"),
 ("C161", P, "C161_word C161_uint C161_int C161_real", ""),
 ("C162", Q, "C162_write C162_write_negative C162_unchecked C162_itoa C162_radix C162_pad_partial C162_refuted", "padding to 2^32-3 or more digits is excluded in C162_pad_partial, and C162_refuted shows that assertions fail there; the rest is proved in full"),
 ("C163", Q, "C163_encode C163_decode_partial C163_wellformed C163_refuted", "C163_refuted: malformed texts such as ==== and =aaa pass the assertions; C163_decode_partial gives exactly the accepted texts, C163_wellformed says that the well formed ones are among them"),
 ("C164", Q, "C164_number C164_text_partial C164_refuted", "C164_refuted: texts with leading zeros fail an assertion, so that code point zero has no accepted text; C164_text_partial gives exactly the accepted texts"),
 ("C165", Q, "C165_search C165_trim C165_pairs C165_pop C165_replace C165_split_partial C165_pair_range_partial C165_refuted", "C165_refuted: split started at the end of a text fails an assertion, and pair_range with the same opening and closing character fails one whenever it finds a pair; the _partial theorems say exactly which calls of these two fail; the rest is proved in full"),
 ("C166", Q, "C166_defined C166_str2bm_partial C166_release C166_write C166_refuted", "C166_refuted: `1 |` and `1 ||2` are refused with assertions and read as 1 and 3 without. C166_str2bm_partial says exactly which texts are refused (those with an item of nothing but blanks and colons); the rest is proved in full"),
 ("C167", Q, "C167_linear_partial C167_small_partial C167_alignment C167_refuted", "C167_refuted: after a reallocation that exceeds the address space slack fails an assertion (and says more than the capacity without), and releasing a block of the small allocator that grew within its array fails one; proved for histories without the former (linear) and of allocations and releases (small, and one reallocation after them)"),
 ("C168", Q, "C168_blocks_partial C168_heaps_partial C168_current C168_null C168_resource C168_refuted", "C168_refuted: blocks held while functions are changed, or functions of different heaps, free memory to the wrong heap; arealloc of null is undefined (memcpy from null); null functions are only reported in builds with assertions; proved for histories that set functions of one heap, with its arealloc or the default, while no block is held"),
 ("C169", Q, "C169_check C169_message_partial C169_silent C169_assert C169_refuted", "C169_refuted: the condition of C4_CHECK_MSG becomes part of the printf format, so that conditions with % are undefined or take the arguments of the message; proved for other conditions, and for C4_CHECK"),
 ("C170", Q, "C170_partial C170_texts_partial C170_refuted", "C170_refuted: the message for lack of memory shows the size in place of the alignment; EnumSymbols::get(s, len) passes a size_t for an int; sizes of 2^31 and more are shown wrong; proved otherwise"),
 ("C171", Q, "C171_toChars C171_fromChars C171_first C171_refuted", "classified for all pairs of views, with and without assertions; C171_refuted: an empty view inside of the other one is rejected too, though nothing is shared"),
 ("C172", Q, "C172_partial C172_refuted", "C172_refuted: a view of a string that begins at its own length is accepted, but its first character is overwritten by the terminator; classified for all views"),
 ("C173", Q, "C173_partial C173_refuted", "C173_refuted: undefined if the capacity does not suffice and a view is not empty; proved otherwise"),
 ("C174", Q, "C174_partial C174_ahead_partial C174_behind_partial C174_texts_partial C174_refuted C174_exact_partial C174_long C174_within_exact C174_empty_exact C174_long_exact", "classified for one view; C174_refuted: after another argument the view may have been overwritten; C174_exact_partial: exact for results that are not longer than the container; C174_long: undefined or stopped if the result does not fit in the capacity and a view is not empty; C174_within_exact, C174_empty_exact and C174_long_exact: exact for all other results, so that every call is classified"),
 ("C175", Q, "C175_make_room_partial C175_make_room_to_partial C175_destroy_room_partial C175_copies_partial C175_refuted_wrap C175_refuted_end C175_refuted_nothing C175_refuted_overlap", "classified when the type has the sums; false otherwise (C175_refuted_wrap), for a gap at the end (C175_refuted_end, C175_refuted_nothing), and for ranges that overlap without beginning together (C175_refuted_overlap)"),
 ("C176", P, "C176_repeat C176_repeat_release C176_raw C176_blob C176_bits C176_lsb_zero", "sizes below 2^64; the lowest bit is that of the version without intrinsics, which agrees with the intrinsics by C23_lsb_builtin"),
 ("C177", Q, "C177_refuted C177_refuted_release C177_refuted_assign C177_copy_partial C177_convert", "false for equality, for releasing (all blocks in the array of the original go to the resource), and after assignments; proved: memory of copies is apart from that of the original, and converted allocators begin empty"),
 ("C178", P, "C178_detects C178_tables", ""),
 ("C179", Q, "C179_catsep_partial C179_format_partial C179_catsep_refuted C179_format_refuted", "classified by the capacity: undefined if it does not suffice and a view that occurs in the result, or the format text, is a view of the container that is not empty; proved otherwise"),
 ("C180", Q, "C180_catsep_partial C180_format_partial C180_noargs_partial C180_refuted C180_catsep_exact_partial C180_format_exact_partial C180_within_exact C180_own_format_partial", "C180_refuted: a separator or the second mark of a format text may have been overwritten before it is read, and no assertion notices; format texts in the container: C180_own_format_partial (stopped by an assertion, or right if they begin after the result), open without assertions if they begin before its end; format texts elsewhere:  exact for results that are not longer than the container, for those longer that fit in its capacity, and undefined or stopped if they do not fit"),
 ("C181", P, "C181_texts C181_one C181_outside", "C181_one: the text of a call exists and is unique; C181_outside: views beyond the end of their container are undefined"),
 ("C182", P, "C182_splitmix C182_xorshift", ""),
]
out = os.path.join(os.path.dirname(os.path.abspath(__file__)), "..", "MANIFEST.json")
with open(out, "w") as f:
    rows = [json.dumps({"property": p, "status": s, "theorems": [N + t for t in th.split()], "note": n})
            for p, s, th, n in sorted(CLAIMS)]
    f.write('{"claims": [\n ' + ",\n ".join(rows) + "\n]}\n")
