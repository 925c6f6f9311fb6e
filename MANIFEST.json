{"claims": [
 {"property": "C01", "status": "proved", "theorems": ["C4.C01_write_dec"], "note": ""},
 {"property": "C02", "status": "proved", "theorems": ["C4.C02_write_hex", "C4.C02_write_oct", "C4.C02_write_bin"], "note": ""},
 {"property": "C03", "status": "proved", "theorems": ["C4.C03_digits"], "note": ""},
 {"property": "C04", "status": "proved", "theorems": ["C4.C04_unsigned", "C4.C04_itoa"], "note": ""},
 {"property": "C05", "status": "partial", "theorems": ["C4.C05_refuted", "C4.C05_itoa_short_partial"], "note": "false of the code: '-' is stored before the size check; the partial theorem states exactly what is written"},
 {"property": "C06", "status": "proved", "theorems": ["C4.C06_write_dec", "C4.C06_write_hex", "C4.C06_write_oct", "C4.C06_write_bin"], "note": ""},
 {"property": "C07", "status": "proved", "theorems": ["C4.C07_utoa", "C4.C07_utoa_padded"], "note": "num_digits < 2^32-3 (see C09)"},
 {"property": "C08", "status": "proved", "theorems": ["C4.C08_itoa", "C4.C08_itoa_radix", "C4.C08_itoa_padded"], "note": "num_digits < 2^32-3 (see C09)"},
 {"property": "C09", "status": "partial", "theorems": ["C4.C09_refuted", "C4.C09_refuted_out_of_bounds", "C4.C09_size_partial", "C4.C09_exact", "C4.C09_exact_signed", "C4.C09_exact_nonneg", "C4.C09_least"], "note": "false of the code: num_digits is truncated to 32 bits; size and contents of the buffer are proved for every number of digits"},
 {"property": "C10", "status": "proved", "theorems": ["C4.C10_read_dec", "C4.C10_read_hex", "C4.C10_read_oct", "C4.C10_read_bin"], "note": ""},
 {"property": "C100", "status": "partial", "theorems": ["C4.C100_refuted", "C4.C100_refuted_iff", "C4.C100_terminator_partial"], "note": "false: the terminator is hashed too; proved what is hashed"},
 {"property": "C101", "status": "partial", "theorems": ["C4.C101_refuted", "C4.C101_refuted_parity", "C4.C101_refuted_linear", "C4.C101_period_partial", "C4.C101_exact", "C4.C101_seeded", "C4.C101_seeded_period"], "note": "false for seeds given as a number: the increment is even; proved for odd increments; the exact period is proved for every state and increment, and so for every seed"},
 {"property": "C102", "status": "proved", "theorems": ["C4.C102_period", "C4.C102_mix"], "note": ""},
 {"property": "C103", "status": "proved", "theorems": ["C4.C103_injective", "C4.C103_nonzero", "C4.C103_period"], "note": ""},
 {"property": "C104", "status": "proved", "theorems": ["C4.C104_wchars"], "note": ""},
 {"property": "C105", "status": "partial", "theorems": ["C4.C105_refuted", "C4.C105_char_partial", "C4.C105_exact"], "note": "false for wchar_t: the count is in bytes; proved for char; the number for characters of any size: C105_exact"},
 {"property": "C106", "status": "partial", "theorems": ["C4.C106_refuted", "C4.C106_refuted_alias", "C4.C106_construct", "C4.C106_construct_args", "C4.C106_copy_construct_partial", "C4.C106_copy_assign_partial", "C4.C106_move_construct_partial", "C4.C106_move_assign_partial", "C4.C106_fill_construct_partial", "C4.C106_fill_assign", "C4.C106_destroy", "C4.C106_copy_assign_exact", "C4.C106_copy_construct_exact", "C4.C106_move_assign_exact", "C4.C106_move_construct_exact", "C4.C106_trivial_exact"], "note": "false for overlapping ranges; proved for disjoint ones; what happens for overlapping ranges is proved for all ranges"},
 {"property": "C107", "status": "partial", "theorems": ["C4.C107_refuted", "C4.C107_large_partial", "C4.C107_exact"], "note": "false for gaps smaller than the number of elements; proved for others; the memory for smaller gaps: C107_exact"},
 {"property": "C108", "status": "proved", "theorems": ["C4.C108_leading_zeroes", "C4.C108_umul128"], "note": ""},
 {"property": "C109", "status": "proved", "theorems": ["C4.C109_table"], "note": ""},
 {"property": "C11", "status": "proved", "theorems": ["C4.C11_atou"], "note": ""},
 {"property": "C110", "status": "proved", "theorems": ["C4.C110_compute_float", "C4.C110_monotone"], "note": ""},
 {"property": "C111", "status": "proved", "theorems": ["C4.C111_eight_digits", "C4.C111_value", "C4.C111_zeros"], "note": ""},
 {"property": "C112", "status": "proved", "theorems": ["C4.C112_of", "C4.C112_small", "C4.C112_powers", "C4.C112_compare", "C4.C112_top", "C4.C112_digits"], "note": ""},
 {"property": "C113", "status": "proved", "theorems": ["C4.C113_longest", "C4.C113_exists"], "note": ""},
 {"property": "C114", "status": "partial", "theorems": ["C4.C114_refuted", "C4.C114_rounded_partial"], "note": "false for texts with about 2^28 digits and a huge exponent, which is read only up to a limit; proved for all other texts"},
 {"property": "C115", "status": "proved", "theorems": ["C4.C115_nan", "C4.C115_inf", "C4.C115_refused"], "note": ""},
 {"property": "C116", "status": "partial", "theorems": ["C4.C116_refuted", "C4.C116_decimal_partial", "C4.C116_hex_partial", "C4.C116_words", "C4.C116_prefix", "C4.C116_others"], "note": "false: text after a number is ignored, a plus sign is refused; proved for decimal and hexadecimal numbers, inf and nan, texts that begin with a number, and texts that begin with none of these"},
 {"property": "C117", "status": "partial", "theorems": ["C4.C117_refuted", "C4.C117_decimal_partial", "C4.C117_hex_partial", "C4.C117_words", "C4.C117_plus", "C4.C117_binary_octal", "C4.C117_none"], "note": "false for numbers with plus sign and for binary and octal ones; proved for decimal and hexadecimal numbers, inf and nan, and what happens is proved for the rest: npos with a plus sign, 0 for binary and octal, npos without a number"},
 {"property": "C118", "status": "proved", "theorems": ["C4.C118_out_of_range"], "note": ""},
 {"property": "C119", "status": "proved", "theorems": ["C4.C119_rounds_to_nearest", "C4.C119_any_direction"], "note": ""},
 {"property": "C12", "status": "proved", "theorems": ["C4.C12_atoi"], "note": ""},
 {"property": "C120", "status": "partial", "theorems": ["C4.C120_double_refuted", "C4.C120_double_partial", "C4.C120_float", "C4.C120_double_exact"], "note": "false for double: the bounds are smaller than documented; proved that they are never too large; C120_double_exact gives the bound exactly for double: 2^52 / 5^p up to the power 13 and 2^52 / 5^(p+1) from 14 on."},
 {"property": "C121", "status": "partial", "theorems": ["C4.C121_refuted", "C4.C121_std_partial", "C4.C121_std_request", "C4.C121_std_hex_partial", "C4.C121_snprintf_partial"], "note": "false: the size returned for a buffer that is too small is not the size needed, in hexadecimal format a buffer of less than two characters is overrun, snprintf needs one character more; proved what remains"},
 {"property": "C122", "status": "partial", "theorems": ["C4.C122_refuted", "C4.C122_cat", "C4.C122_catsep", "C4.C122_format", "C4.C122_resizing", "C4.C122_append", "C4.C122_args"], "note": "false for hexadecimal format with an empty container (undefined); proved for all writers that satisfy C121 as far as it holds"},
 {"property": "C123", "status": "partial", "theorems": ["C4.C123_refuted", "C4.C123_std_partial", "C4.C123_right_partial", "C4.C123_left_exact"], "note": "false: aligned to the left, snprintf's terminating zero remains in the padding; proved with std::to_chars, and for alignment to the right; what alignment to the left gives: C123_left_exact"},
 {"property": "C124", "status": "partial", "theorems": ["C4.C124_refuted", "C4.C124_hex_refuted", "C4.C124_shortest_partial", "C4.C124_digits_partial", "C4.C124_words_partial"], "note": "false without std::to_chars (six digits by default) and in hexadecimal format; proved for shortest texts, for 17 (9) digits, infinities and NaN"},
 {"property": "C125", "status": "partial", "theorems": ["C4.C125_refuted", "C4.C125_partial", "C4.C125_silent", "C4.C125_warning"], "note": "false for exceptions without logging and callback (uninitialized message); proved for all other flags"},
 {"property": "C126", "status": "partial", "theorems": ["C4.C126_refuted", "C4.C126_partial", "C4.C126_blocks_partial"], "note": "false if objects are not destroyed in reverse order, or a copy is made; proved that each restores what it found; C126_blocks_partial proves the whole property for programs with nested blocks, however they are left."},
 {"property": "C127", "status": "partial", "theorems": ["C4.C127_refuted", "C4.C127_partial", "C4.C127_absent_exact", "C4.C127_later", "C4.C127_present_exact"], "note": "false: the first answer is kept, the name of the program is searched too, a status of 1024 characters or more is read out of bounds; proved for the first call if the line is found; proved what happens with other contents of the file and at later calls; With TracerPid: in what is read: the result for every number after it, with any blanks and sign, and undefined behaviour exactly if it is not an int."},
 {"property": "C128", "status": "partial", "theorems": ["C4.C128_refuted", "C4.C128_partial", "C4.C128_keyword_exact"], "note": "false for enumerations and unions with MSVC; enumerations and unions keep their keyword: C128_keyword_exact"},
 {"property": "C129", "status": "partial", "theorems": ["C4.C129_standard_refuted", "C4.C129_compare", "C4.C129_standard_partial", "C4.C129_standard_exact"], "note": "the order is that of csubstr::compare for all operators; it is not that of std::string for characters from 128 on if char is signed (refuted); exactly when the order is not that of the standard strings: C129_standard_exact"},
 {"property": "C13", "status": "proved", "theorems": ["C4.C13_unsigned", "C4.C13_signed", "C4.C13_unsigned_text", "C4.C13_signed_text"], "note": "num_digits < 2^32-3 for the buffer forms (see C09); every padding for the text forms"},
 {"property": "C130", "status": "proved", "theorems": ["C4.C130_round_trip"], "note": ""},
 {"property": "C131", "status": "partial", "theorems": ["C4.C131_refuted", "C4.C131_refuted_trailing", "C4.C131_exact_partial", "C4.C131_whole_partial", "C4.C131_partial", "C4.C131_decimal_partial", "C4.C131_first_partial", "C4.C131_first_none", "C4.C131_other_partial", "C4.C131_count_partial"], "note": "false for a view that only begins with a number, if no zero follows the view, for a view beginning with a vertical tab, form feed or the like, and from 10^10 characters on; proved otherwise; The number of characters that the conversion reports is that of the characters converted."},
 {"property": "C132", "status": "partial", "theorems": ["C4.C132_ptr", "C4.C132_array_partial", "C4.C132_array_refuted", "C4.C132_ptrs", "C4.C132_compare", "C4.C132_char_partial", "C4.C132_char_refuted", "C4.C132_empty"], "note": "false for arrays with characters after the zero (they are all viewed) and, for single characters, views of 2^31 characters on; proved otherwise"},
 {"property": "C133", "status": "partial", "theorems": ["C4.C133_numbers_partial", "C4.C133_pointers_partial", "C4.C133_null", "C4.C133_read_back", "C4.C133_pointers_refuted", "C4.C133_pointers_exact"], "note": "addresses from 2^63 on are written as negative numbers (refuted); widths below 2^32-3 (see C09); any address reads back; texts of the other addresses: C133_pointers_exact"},
 {"property": "C134", "status": "partial", "theorems": ["C4.C134_aalloc", "C4.C134_refuted", "C4.C134_exact"], "note": "proved for aalloc; a request of no bytes through a memory resource may be reported as lack of memory (refuted); through any chain of resources, exactly: C134_exact"},
 {"property": "C135", "status": "partial", "theorems": ["C4.C135_refuted", "C4.C135_stacked_partial", "C4.C135_reallocFails", "C4.C135_defined"], "note": "false after a reallocation that fails, which uncounts the block in all counting resources it passed through (C89); proved for histories without those"},
 {"property": "C136", "status": "partial", "theorems": ["C4.C136_equality", "C4.C136_own_partial", "C4.C136_refuted", "C4.C136_exact", "C4.C136_counts", "C4.C136_back", "C4.C136_ne", "C4.C136_select"], "note": "proved for allocators with their own resource; false for those using the global resource, and select_on_container_copy_construct copies; exactly what the resources count, and which objects go back to where they are from, is proved for allocators of both kinds with reallocation; C136_select: what select_on_container_copy_construct gives, and when that is the default constructed allocator."},
 {"property": "C137", "status": "partial", "theorems": ["C4.C137_difference_partial", "C4.C137_difference_refuted", "C4.C137_sum", "C4.C137_difference_exact", "C4.C137_max_iff", "C4.peak_le_iff"], "note": "current and total counts exact; the maximum of a difference can be too small (refuted), that of a sum is an upper bound; C137_difference_exact gives the maximum of the difference exactly and C137_max_iff says when it is that of the calls alone."},
 {"property": "C138", "status": "partial", "theorems": ["C4.C138_sizes_partial", "C4.C138_refuted"], "note": "exact if and only if the index type has the value; false for other sizes (refuted)"},
 {"property": "C139", "status": "proved", "theorems": ["C4.C139_access", "C4.C139_same_span"], "note": "for spans of non-negative size within memory"},
 {"property": "C14", "status": "partial", "theorems": ["C4.C14_refuted", "C4.C14_no_overflow_partial", "C4.C14_digits_exact", "C4.C14_atoi_exact"], "note": "false of the code for the minimum of 32/64-bit types; proved for every other in-range value"},
 {"property": "C140", "status": "partial", "theorems": ["C4.Tight.C140_pair_partial", "C4.Tight.C140_distinct", "C4.Tight.C140_tight", "C4.Tight.C140_refuted"], "note": "the default constructor for two equal non-empty types leaves the second uninitialized (refuted); proved otherwise"},
 {"property": "C141", "status": "partial", "theorems": ["C4.C141_uncat", "C4.C141_uncatsep", "C4.C141_unformat_partial", "C4.C141_refuted", "C4.C141_uncat_iff", "C4.C141_uncatsep_iff", "C4.C141_unformat_exact"], "note": "uncat and uncatsep proved; unformat does not compare the literal text of the format and can count more characters than there are (refuted), the values it stores are proved; all three both ways: npos only if there are no such numbers"},
 {"property": "C142", "status": "proved", "theorems": ["C4.C142_is_aligned"], "note": ""},
 {"property": "C143", "status": "partial", "theorems": ["C4.C143_discard", "C4.C143_seed", "C4.C143_refuted_seed", "C4.C143_pcg_partial", "C4.C143_refuted_device", "C4.C143_device_partial", "C4.C143_equal", "C4.C143_device_exact"], "note": "false for pcg, whose seed keeps the increment, and for the seeds from a random device, which never have the highest bit; proved otherwise; the seeds from a random device are exactly the numbers below 2^63"},
 {"property": "C144", "status": "partial", "theorems": ["C4.C144_number_partial", "C4.C144_wraps", "C4.C144_none", "C4.C144_refuted"], "note": "false for 64-bit types: some numbers beyond 2^64 wrap around, and which ones do and to what is proved (C144_wraps); the claim is proved for narrower types and for numbers below 2^64 plus the largest power of the base below 2^64"},
 {"property": "C145", "status": "proved", "theorems": ["C4.C145_integers", "C4.C145_pointers"], "note": ""},
 {"property": "C146", "status": "proved", "theorems": ["C4.C146_read", "C4.C146_json", "C4.C146_none", "C4.C146_exists", "C4.C146_general", "C4.C146_hex", "C4.C146_flags", "C4.C146_values"], "note": "The value hex of chars_format is accepted, but reads decimal numbers without exponent (C146_hex).; the flags are independent and the values of chars_format stand for what they say (C146_flags, C146_values)"},
 {"property": "C147", "status": "partial", "theorems": ["C4.C147_same_partial", "C4.C147_latin1", "C4.C147_refuted"], "note": "False for texts with wide characters whose low byte is a letter of nan or infinity: they are compared after conversion to char, so that U+016E, a, U+016E is read as NaN. Proved for all other texts."},
 {"property": "C148", "status": "partial", "theorems": ["C4.C148_same_partial", "C4.C148_latin1", "C4.C148_refuted"], "note": "False for texts with wide characters whose low byte is a digit or a letter: ch_to_digit converts them to unsigned char, so that U+0131 is read as 1. Proved for all other texts."},
 {"property": "C149", "status": "proved", "theorems": ["C4.C149_memory", "C4.C149_fits", "C4.C149_zero"], "note": "numbers without zero limbs on top"},
 {"property": "C15", "status": "proved", "theorems": ["C4.C15_overflows_unsigned", "C4.C15_safe"], "note": ""},
 {"property": "C150", "status": "partial", "theorems": ["C4.C150_refuted", "C4.C150_refuted_terminate", "C4.C150_construct_partial", "C4.C150_make_room_partial", "C4.C150_noexcept_partial"], "note": "False: the objects constructed before the exception are not destroyed, and functions declared noexcept end the program."},
 {"property": "C151", "status": "proved", "theorems": ["C4.C151_construct", "C4.C151_copy_move", "C4.C151_destroy", "C4.C151_scalars"], "note": ""},
 {"property": "C152", "status": "partial", "theorems": ["C4.C152_refuted", "C4.C152_make_room_partial", "C4.C152_assertions"], "note": "False for room after the last element, which an assertion rejects."},
 {"property": "C153", "status": "partial", "theorems": ["C4.C153_refuted", "C4.C153_iff_partial"], "note": "False for types with pointers to data members: the memory is cleared."},
 {"property": "C154", "status": "partial", "theorems": ["C4.C154_refuted", "C4.C154_construct_partial"], "note": "False for types that can be constructed with the resource first and last: the call is ambiguous."},
 {"property": "C155", "status": "partial", "theorems": ["C4.C155_refuted_trim", "C4.C155_refuted_negative", "C4.C155_iff_partial"], "note": "False: trimming all elements is rejected; negative sizes and sums that wrap around are accepted."},
 {"property": "C156", "status": "proved", "theorems": ["C4.C156_commute", "C4.C156_elements", "C4.C156_constructed"], "note": ""},
 {"property": "C157", "status": "proved", "theorems": ["C4.FF.L32.C157_same"], "note": ""},
 {"property": "C158", "status": "proved", "theorems": ["C4.FF.L32.C158_of", "C4.FF.L32.C158_small", "C4.FF.L32.C158_powers", "C4.FF.L32.C158_compare", "C4.FF.L32.C158_top", "C4.FF.L32.C158_digits", "C4.FF.L32.C158_memory", "C4.FF.L32.C158_fits", "C4.FF.L32.C158_zero"], "note": "numbers without zero limbs on top"},
 {"property": "C159", "status": "partial", "theorems": ["C4.C159_accepts_partial", "C4.C159_selects", "C4.C159_selects_foreign", "C4.C159_removes", "C4.C159_mistaken_outside", "C4.C159_refuted"], "note": "accepted calls characterised exactly; the property is false of the code: offs accepts one element too many, right_of the end, left_of the end with the position included, reverse_range exchanged ends, and sums with npos wrap (erase then writes past the end)"},
 {"property": "C16", "status": "partial", "theorems": ["C4.C16_overflows_signed", "C4.C16_refuted", "C4.C16_safe_partial"], "note": "exactness proved in full; memory safety false for the string \"-\" and proved for every other"},
 {"property": "C160", "status": "partial", "theorems": ["C4.C160_atou", "C4.C160_atou_first", "C4.C160_atoi_partial", "C4.C160_atoi_first_partial", "C4.C160_atof_partial", "C4.C160_atof_first", "C4.C160_overflows", "C4.C160_read_partial", "C4.C160_refuted"], "note": "true for atou, atou_first, atof_first and overflows; false for atoi, atoi_first, atof and read_*: the refused texts are characterised exactly"},
 {"property": "C161", "status": "proved", "theorems": ["C4.C161_word", "C4.C161_uint", "C4.C161_int", "C4.C161_real"], "note": ""},
 {"property": "C162", "status": "partial", "theorems": ["C4.C162_write", "C4.C162_write_negative", "C4.C162_unchecked", "C4.C162_itoa", "C4.C162_radix", "C4.C162_pad_partial", "C4.C162_refuted"], "note": "padding to 2^32-3 or more digits is excluded in C162_pad_partial, and C162_refuted shows that assertions fail there; the rest is proved in full"},
 {"property": "C163", "status": "partial", "theorems": ["C4.C163_encode", "C4.C163_decode_partial", "C4.C163_wellformed", "C4.C163_refuted"], "note": "C163_refuted: malformed texts such as ==== and =aaa pass the assertions; C163_decode_partial gives exactly the accepted texts, C163_wellformed says that the well formed ones are among them"},
 {"property": "C164", "status": "partial", "theorems": ["C4.C164_number", "C4.C164_text_partial", "C4.C164_refuted"], "note": "C164_refuted: texts with leading zeros fail an assertion, so that code point zero has no accepted text; C164_text_partial gives exactly the accepted texts"},
 {"property": "C165", "status": "partial", "theorems": ["C4.C165_search", "C4.C165_trim", "C4.C165_pairs", "C4.C165_pop", "C4.C165_replace", "C4.C165_split_partial", "C4.C165_pair_range_partial", "C4.C165_refuted"], "note": "C165_refuted: split started at the end of a text fails an assertion, and pair_range with the same opening and closing character fails one whenever it finds a pair; the _partial theorems say exactly which calls of these two fail; the rest is proved in full"},
 {"property": "C166", "status": "partial", "theorems": ["C4.C166_defined", "C4.C166_str2bm_partial", "C4.C166_release", "C4.C166_write", "C4.C166_refuted"], "note": "C166_refuted: `1 |` and `1 ||2` are refused with assertions and read as 1 and 3 without. C166_str2bm_partial says exactly which texts are refused (those with an item of nothing but blanks and colons); the rest is proved in full"},
 {"property": "C167", "status": "partial", "theorems": ["C4.C167_linear_partial", "C4.C167_small_partial", "C4.C167_alignment", "C4.C167_refuted"], "note": "C167_refuted: after a reallocation that exceeds the address space slack fails an assertion (and says more than the capacity without), and releasing a block of the small allocator that grew within its array fails one; proved for histories without the former (linear) and of allocations and releases (small, and one reallocation after them)"},
 {"property": "C168", "status": "partial", "theorems": ["C4.C168_blocks_partial", "C4.C168_heaps_partial", "C4.C168_current", "C4.C168_null", "C4.C168_resource", "C4.C168_refuted"], "note": "C168_refuted: blocks held while functions are changed, or functions of different heaps, free memory to the wrong heap; arealloc of null is undefined (memcpy from null); null functions are only reported in builds with assertions; proved for histories that set functions of one heap, with its arealloc or the default, while no block is held"},
 {"property": "C169", "status": "partial", "theorems": ["C4.C169_check", "C4.C169_message_partial", "C4.C169_silent", "C4.C169_assert", "C4.C169_refuted"], "note": "C169_refuted: the condition of C4_CHECK_MSG becomes part of the printf format, so that conditions with % are undefined or take the arguments of the message; proved for other conditions, and for C4_CHECK"},
 {"property": "C17", "status": "partial", "theorems": ["C4.C17_unsigned", "C4.C17_signed_partial", "C4.C17_refuted"], "note": "signed: false for the string \"-\" (out-of-bounds read), proved for every other string; unsigned proved in full"},
 {"property": "C170", "status": "partial", "theorems": ["C4.C170_partial", "C4.C170_texts_partial", "C4.C170_refuted"], "note": "C170_refuted: the message for lack of memory shows the size in place of the alignment; EnumSymbols::get(s, len) passes a size_t for an int; sizes of 2^31 and more are shown wrong; proved otherwise"},
 {"property": "C171", "status": "partial", "theorems": ["C4.C171_toChars", "C4.C171_fromChars", "C4.C171_first", "C4.C171_refuted"], "note": "classified for all pairs of views, with and without assertions; C171_refuted: an empty view inside of the other one is rejected too, though nothing is shared"},
 {"property": "C172", "status": "partial", "theorems": ["C4.C172_partial", "C4.C172_refuted"], "note": "C172_refuted: a view of a string that begins at its own length is accepted, but its first character is overwritten by the terminator; classified for all views"},
 {"property": "C173", "status": "partial", "theorems": ["C4.C173_partial", "C4.C173_refuted"], "note": "C173_refuted: undefined if the capacity does not suffice and a view is not empty; proved otherwise"},
 {"property": "C174", "status": "partial", "theorems": ["C4.C174_partial", "C4.C174_ahead_partial", "C4.C174_behind_partial", "C4.C174_texts_partial", "C4.C174_refuted", "C4.C174_exact_partial", "C4.C174_long", "C4.C174_within_exact", "C4.C174_empty_exact", "C4.C174_long_exact"], "note": "classified for one view; C174_refuted: after another argument the view may have been overwritten; C174_exact_partial: exact for results that are not longer than the container; C174_long: undefined or stopped if the result does not fit in the capacity and a view is not empty; C174_within_exact, C174_empty_exact and C174_long_exact: exact for all other results, so that every call is classified"},
 {"property": "C175", "status": "partial", "theorems": ["C4.C175_make_room_partial", "C4.C175_make_room_to_partial", "C4.C175_destroy_room_partial", "C4.C175_copies_partial", "C4.C175_refuted_wrap", "C4.C175_refuted_end", "C4.C175_refuted_nothing", "C4.C175_refuted_overlap"], "note": "classified when the type has the sums; false otherwise (C175_refuted_wrap), for a gap at the end (C175_refuted_end, C175_refuted_nothing), and for ranges that overlap without beginning together (C175_refuted_overlap)"},
 {"property": "C176", "status": "proved", "theorems": ["C4.C176_repeat", "C4.C176_repeat_release", "C4.C176_raw", "C4.C176_blob", "C4.C176_bits", "C4.C176_lsb_zero"], "note": "sizes below 2^64; the lowest bit is that of the version without intrinsics, which agrees with the intrinsics by C23_lsb_builtin"},
 {"property": "C177", "status": "partial", "theorems": ["C4.C177_refuted", "C4.C177_refuted_release", "C4.C177_refuted_assign", "C4.C177_copy_partial", "C4.C177_convert"], "note": "false for equality, for releasing (all blocks in the array of the original go to the resource), and after assignments; proved: memory of copies is apart from that of the original, and converted allocators begin empty"},
 {"property": "C178", "status": "proved", "theorems": ["C4.C178_detects", "C4.C178_tables"], "note": ""},
 {"property": "C179", "status": "partial", "theorems": ["C4.C179_catsep_partial", "C4.C179_format_partial", "C4.C179_catsep_refuted", "C4.C179_format_refuted"], "note": "classified by the capacity: undefined if it does not suffice and a view that occurs in the result, or the format text, is a view of the container that is not empty; proved otherwise"},
 {"property": "C18", "status": "proved", "theorems": ["C4.C18_atoi_first", "C4.C18_atou_first", "C4.C18_atoi_first_iff", "C4.C18_atou_first_iff"], "note": "both ways"},
 {"property": "C180", "status": "partial", "theorems": ["C4.C180_catsep_partial", "C4.C180_format_partial", "C4.C180_noargs_partial", "C4.C180_refuted", "C4.C180_catsep_exact_partial", "C4.C180_format_exact_partial", "C4.C180_within_exact", "C4.C180_own_format_partial"], "note": "C180_refuted: a separator or the second mark of a format text may have been overwritten before it is read, and no assertion notices; format texts in the container: C180_own_format_partial (stopped by an assertion, or right if they begin after the result), open without assertions if they begin before its end; format texts elsewhere:  exact for results that are not longer than the container, for those longer that fit in its capacity, and undefined or stopped if they do not fit"},
 {"property": "C181", "status": "proved", "theorems": ["C4.C181_texts", "C4.C181_one", "C4.C181_outside"], "note": "C181_one: the text of a call exists and is unique; C181_outside: views beyond the end of their container are undefined"},
 {"property": "C182", "status": "proved", "theorems": ["C4.C182_splitmix", "C4.C182_xorshift"], "note": ""},
 {"property": "C19", "status": "partial", "theorems": ["C4.C19_refuted", "C4.C19_int_partial", "C4.C19_uint_partial", "C4.C19_int_exact", "C4.C19_uint_exact"], "note": "false for numbers with a plus sign (accepted by the span scanner only); proved for every other number; with a plus sign the result is always npos"},
 {"property": "C20", "status": "proved", "theorems": ["C4.C20_string_write", "C4.C20_string_fits", "C4.C20_string_read", "C4.C20_container_read", "C4.C20_string_roundtrip", "C4.C20_first_view", "C4.C20_first_copy", "C4.C20_char", "C4.C20_to_chars_sub", "C4.C20_bool_read", "C4.C20_bool"], "note": "reading a bool: strings shorter than 2^31 (see C28)"},
 {"property": "C21", "status": "partial", "theorems": ["C4.C21_refuted", "C4.C21_refuted_trailing", "C4.C21_bool_partial", "C4.C21_bool_exact", "C4.C21_blank"], "note": "false with blanks before or after the first run; proved for a string that is one run; exactly: it succeeds if and only if the whole string is a bool text"},
 {"property": "C22", "status": "partial", "theorems": ["C4.C22_refuted_letter", "C4.C22_refuted_upper", "C4.C22_refuted_exponent", "C4.C22_refuted_stale", "C4.C22_refuted_language", "C4.C22_value_partial", "C4.C22_computed_partial", "C4.C22_float_partial", "C4.C22_float_power_partial", "C4.C22_refuted_rounding", "C4.C22_refuted_overflow", "C4.C22_exact", "C4.C22_no_exponent_iff", "C4.C22_accepts_exact"], "note": "false for letter digits, non-zero exponents (zero with a large one is read as not-a-number), a result variable not holding zero, and more digits than the precision; proved otherwise, over exact rationals and with the arithmetic of float and double; over exact rationals all texts are classified: which are accepted, and what is computed for every number, exponent and previous value of the variable"},
 {"property": "C23", "status": "proved", "theorems": ["C4.C23_msb", "C4.C23_lsb", "C4.C23_msb11", "C4.C23_lsb11", "C4.C23_msb_builtin", "C4.C23_lsb_builtin"], "note": "the portable fallbacks, the intrinsics (their documented results are trusted) and the compile-time versions"},
 {"property": "C24", "status": "partial", "theorems": ["C4.C24_ipow_refuted", "C4.C24_ipow_exact", "C4.C24_ipow_wraps_partial", "C4.C24_ipow_overflow", "C4.C24_ipow_neg_partial", "C4.C24_ipow_base"], "note": "exact whenever the power can be represented; reduced modulo the width except for unsigned 16-bit bases above 2^15 (overflow of int, refuted) and signed types of 32 and 64 bits (undefined); negative exponents except the smallest (refuted)"},
 {"property": "C25", "status": "proved", "theorems": ["C4.C25_contiguous_mask", "C4.C25_contiguous_mask11"], "note": ""},
 {"property": "C26", "status": "proved", "theorems": ["C4.C26_mem_repeat"], "note": ""},
 {"property": "C27", "status": "proved", "theorems": ["C4.C27_mem_overlaps"], "note": ""},
 {"property": "C28", "status": "partial", "theorems": ["C4.C28_compare", "C4.C28_antisymm", "C4.C28_trans", "C4.C28_operators", "C4.C28_compare_char_partial", "C4.C28_char_refuted", "C4.C28_char_exact", "C4.C28_char_other"], "note": "string/string comparison proved in full; compare(char) is false for views longer than 2^31 (length truncated to int), proved below that; what happens for longer views is proved too: wrong only if the view begins with the character"},
 {"property": "C29", "status": "proved", "theorems": ["C4.C29_first", "C4.C29_last", "C4.C29_find", "C4.C29_select"], "note": ""},
 {"property": "C30", "status": "partial", "theorems": ["C4.C30_count_char", "C4.C30_count_pattern_partial", "C4.leftmostOccs_max", "C4.C30_refuted"], "note": "count(char) proved; count(pattern) proved for non-empty patterns, does not terminate for the empty pattern"},
 {"property": "C31", "status": "proved", "theorems": ["C4.C31_triml", "C4.C31_trimr", "C4.C31_trim"], "note": ""},
 {"property": "C32", "status": "proved", "theorems": ["C4.C32_begins_ends", "C4.C32_begins_ends_num", "C4.C32_begins_ends_char", "C4.C32_strip"], "note": ""},
 {"property": "C33", "status": "partial", "theorems": ["C4.C33_selectors_partial", "C4.C33_refuted", "C4.C33_partition", "C4.C33_partition_sub", "C4.C33_exact", "C4.C33_elsewhere"], "note": "the assertions of offs/left_of/right_of admit boundary arguments that leave the view (refuted); proved with those excluded; C33_exact says which arguments give views inside; views that are no parts: what is left or right of them, exactly"},
 {"property": "C34", "status": "proved", "theorems": ["C4.C34_split", "C4.C34_split_empty", "C4.Spec.SplitsInto.unique"], "note": ""},
 {"property": "C35", "status": "proved", "theorems": ["C4.C35_next_split"], "note": ""},
 {"property": "C36", "status": "proved", "theorems": ["C4.C36_pop_right", "C4.C36_pop_left", "C4.C36_pop_right_skip", "C4.C36_pop_left_skip", "C4.C36_basename_dirname", "C4.C36_path", "C4.C36_extensions"], "note": ""},
 {"property": "C37", "status": "proved", "theorems": ["C4.C37_reverse", "C4.C37_reverse_sub", "C4.C37_reverse_range", "C4.C37_ranges", "C4.C37_twice"], "note": ""},
 {"property": "C38", "status": "proved", "theorems": ["C4.C38_erase", "C4.C38_erase_range", "C4.C38_positions"], "note": ""},
 {"property": "C39", "status": "proved", "theorems": ["C4.C39_replace_char", "C4.C39_replace_set"], "note": ""},
 {"property": "C40", "status": "partial", "theorems": ["C4.C40_replace_all_partial", "C4.leftmostOccs_unique", "C4.C40_refuted", "C4.C40_npos"], "note": "pos == npos, admitted by the first assertion, copies out of bounds (refuted); proved for every other position; what happens for npos is proved"},
 {"property": "C41", "status": "proved", "theorems": ["C4.C41_pair_range", "C4.C41_pair_range_esc", "C4.C41_pair_range_nested", "C4.C41_nested_same"], "note": "equal delimiters: never a range"},
 {"property": "C42", "status": "proved", "theorems": ["C4.C42_unquoted"], "note": ""},
 {"property": "C43", "status": "proved", "theorems": ["C4.C43_int", "C4.C43_uint"], "note": ""},
 {"property": "C44", "status": "proved", "theorems": ["C4.C44_is_unsigned_integer", "C4.C44_is_integer", "C4.C44_is_real", "C4.C44_is_number", "C4.C44_integer_is_number"], "note": ""},
 {"property": "C45", "status": "proved", "theorems": ["C4.C45_real_span", "C4.C45_digits"], "note": ""},
 {"property": "C46", "status": "partial", "theorems": ["C4.C46_is_super", "C4.C46_is_super_null", "C4.C46_overlaps_partial", "C4.C46_refuted", "C4.C46_exact"], "note": "overlaps reports true for an empty view inside another (refuted); exact for non-empty views; when overlap is reported is proved for all views"},
 {"property": "C47", "status": "proved", "theorems": ["C4.C47_first_of_any"], "note": ""},
 {"property": "C48", "status": "partial", "theorems": ["C4.C48_case", "C4.C48_case_signed_partial", "C4.C48_refuted", "C4.C48_fill", "C4.C48_copy_from"], "note": "fill and copy_from proved; toupper/tolower proved where char is unsigned, and for strings without bytes 128..254 where char is signed (undefined otherwise)"},
 {"property": "C49", "status": "proved", "theorems": ["C4.C49_cat", "C4.C49_cat_args", "C4.C49_prefix", "C4.C49_view", "C4.Arg.writes"], "note": "argument writers: integers in every form, strings, chars, bools, boolalpha, pointers"},
 {"property": "C50", "status": "proved", "theorems": ["C4.C50_catsep", "C4.C50_catsep_args"], "note": ""},
 {"property": "C51", "status": "proved", "theorems": ["C4.C51_format", "C4.C51_format_args", "C4.Spec.Subst.unique"], "note": ""},
 {"property": "C52", "status": "proved", "theorems": ["C4.C52_resizing", "C4.C52_resizing_fits", "C4.C52_append", "C4.C52_args"], "note": ""},
 {"property": "C53", "status": "proved", "theorems": ["C4.C53_uncat_text", "C4.C53_uncatsep_text", "C4.C53_uncatsep", "C4.C53_unformat", "C4.C53_delimiter_needed"], "note": "unformat for format strings whose marks are followed by a delimiter or the end; needed, see C53_delimiter_needed"},
 {"property": "C54", "status": "partial", "theorems": ["C4.C54_refuted", "C4.C54_left_partial", "C4.C54_right_partial", "C4.C54_exact"], "note": "a buffer longer than the text and shorter than the width is overrun (refuted); proved otherwise; proved that in all remaining cases the padding is written outside of the buffer"},
 {"property": "C55", "status": "proved", "theorems": ["C4.C55_write", "C4.C55_read", "C4.C55_roundtrip"], "note": ""},
 {"property": "C56", "status": "proved", "theorems": ["C4.C56_encode", "C4.C56_writer", "C4.C56_size"], "note": ""},
 {"property": "C57", "status": "proved", "theorems": ["C4.C57_roundtrip"], "note": ""},
 {"property": "C58", "status": "proved", "theorems": ["C4.C58_bounded", "C4.C58_valid", "C4.C58_exact", "C4.C58_refuted"], "note": "C58_refuted: what happens outside the precondition"},
 {"property": "C59", "status": "partial", "theorems": ["C4.C59_refuted", "C4.C59_refuted_unsigned", "C4.C59_valid_partial", "C4.C59_accepts", "C4.C59_unsigned_exact"], "note": "'=' is accepted anywhere, and with unsigned char the table is read out of bounds (refuted); proved: accepts exactly letters and '=' in multiples of four; with unsigned char the first character that is neither a letter nor = decides (C59_unsigned_exact)"},
 {"property": "C60", "status": "proved", "theorems": ["C4.C60_decode_code_point", "C4.C60_decode_string"], "note": ""},
 {"property": "C61", "status": "proved", "theorems": ["C4.C61_original"], "note": "unsigned index types"},
 {"property": "C62", "status": "proved", "theorems": ["C4.C62_span", "C4.C62_spanrs", "C4.C62_elements", "C4.C62_is_subspan", "C4.C62_same_span"], "note": "unsigned index types"},
 {"property": "C63", "status": "partial", "theorems": ["C4.C63_equal14", "C4.C63_less", "C4.C63_operators", "C4.C63_refuted_cpp11", "C4.C63_equal11_partial", "C4.C63_spans11_partial", "C4.C63_exact11"], "note": "false for operator== in C++11 builds with spans of different size; proved otherwise; the C++11 operator is described exactly: prefixes compare equal, and a right side that is a proper prefix of the left is overrun"},
 {"property": "C64", "status": "proved", "theorems": ["C4.C64_cat_dump", "C4.C64_cat_dump_short", "C4.C64_catsep_dump", "C4.C64_catsep_dump_short", "C4.C64_format_dump", "C4.C64_empty_buffer"], "note": ""},
 {"property": "C65", "status": "partial", "theorems": ["C4.C65_refuted", "C4.C65_refuted_empty", "C4.C65_one_call_partial", "C4.C65_nothing_lost_partial", "C4.C65_exact_partial", "C4.C65_two_calls_partial", "C4.C65_history_exact"], "note": "false: arguments after one that does not fit are sent again by the retry; with an empty buffer strings are lost. Proved: a sufficient first buffer, nothing lost with non-empty buffers, exact if nothing that fits follows something that does not, two calls suffice; and exactly what is sent for any arguments and history of buffers, and when success is reported"},
 {"property": "C66", "status": "partial", "theorems": ["C4.C66_refuted_catsep", "C4.C66_refuted_format", "C4.C66_refuted_surplus", "C4.C66_catsep_one_call_partial", "C4.C66_catsep_exact_partial", "C4.C66_format_one_call_partial", "C4.C66_format_exact_partial", "C4.C66_catsep_history_exact", "C4.C66_format_history_exact"], "note": "false: an argument that does not fit is lost if a string follows; proved for a sufficient first buffer and for arguments (and separator) that are values with non-empty text; and exactly which pieces are lost for any arguments and history of buffers"},
 {"property": "C67", "status": "proved", "theorems": ["C4.C67_blocks", "C4.C67_reports", "C4.C67_realloc_reports", "C4.C67_clear"], "note": "sizes within the address space; see C88 for others"},
 {"property": "C68", "status": "partial", "theorems": ["C4.C68_refuted", "C4.C68_linear_partial", "C4.C68_arealloc", "C4.C68_linear_exact"], "note": "the linear resource does not copy when it moves a block (refuted); proved for blocks that keep their place, and for arealloc in full; C68_linear_exact says which blocks keep their place"},
 {"property": "C69", "status": "partial", "theorems": ["C4.C69_refuted_acquire", "C4.C69_refuted_destructor", "C4.C69_refuted_borrowed", "C4.C69_refuted_release", "C4.C69_refuted_leak", "C4.C69_lifetime_partial", "C4.C69_start_partial", "C4.C69_acquire_partial", "C4.C69_empty_partial", "C4.C69_history_exact"], "note": "acquire and release on a constructed object dispatch to the object itself (refuted); proved for construction and destruction; proved exactly for all histories of calls what the parent is asked for and what it gets back"},
 {"property": "C70", "status": "proved", "theorems": ["C4.C70_counts", "C4.C70_no_leak"], "note": "ssize_t taken without bounds"},
 {"property": "C71", "status": "partial", "theorems": ["C4.C71_refuted", "C4.C71_refuted_wrap", "C4.C71_lifo_partial", "C4.C71_exact"], "note": "false unless blocks are released in reverse order; proved for that order; exactly which blocks overlap is proved for all orders of release"},
 {"property": "C72", "status": "partial", "theorems": ["C4.C72_refuted", "C4.C72_nesting_partial", "C4.C72_counts_of_current_partial", "C4.C72_exact", "C4.C72_exact_use"], "note": "ScopedMemoryResourceCounts(m) restores m (refuted); proved without it or with m the current resource; C72_exact gives the resource after any program"},
 {"property": "C73", "status": "partial", "theorems": ["C4.C73_e2str", "C4.C73_str2e", "C4.C73_refuted", "C4.C73_roundtrip_partial", "C4.C73_first"], "note": "false if a name without prefix is another full name; proved for tables without such a clash; proved without that condition: the first symbol spelled like the string is taken, an error if there is none"},
 {"property": "C74", "status": "partial", "theorems": ["C4.C74_refuted", "C4.C74_refuted_shadow", "C4.C74_find_partial", "C4.C74_first"], "note": "false: every prefix of a full name is accepted; proved: what is found has the string as spelling or prefix, exact if no name extends it; proved exactly: the first symbol that is spelled like the string or begins with it is found"},
 {"property": "C75", "status": "proved", "theorems": ["C4.C75_bm2str"], "note": "also: an error happens only if a bit has no symbol of its own, and then for every buffer"},
 {"property": "C76", "status": "partial", "theorems": ["C4.C76_refuted", "C4.C76_refuted_prefix", "C4.C76_roundtrip_partial", "C4.C76_exact", "C4.C76_roundtrip_iff"], "note": "false for names with digits and for names that are prefixes of others; proved otherwise; for names that are identifiers the outcome of reading back is given exactly: refused if a written name has a digit, else the OR of the values of the first symbols spelled like or beginning with the written names; the round trip holds exactly if that OR is the bits"},
 {"property": "C77", "status": "proved", "theorems": ["C4.C77_chunks", "C4.C77_fnv1a", "C4.C77_bijective", "C4.C77_one_byte"], "note": "also: one differing byte gives a different hash"},
 {"property": "C78", "status": "partial", "theorems": ["C4.C78_refuted", "C4.C78_szconv_partial", "C4.C78_negative"], "note": "false for negative values and types that are not narrower (what they become is proved, C78_negative); proved otherwise"},
 {"property": "C79", "status": "proved", "theorems": ["C4.C79_sequence"], "note": ""},
 {"property": "C80", "status": "proved", "theorems": ["C4.C80_min", "C4.C80_mult", "C4.C80_min_mult", "C4.C80_ubuf"], "note": ""},
 {"property": "C81", "status": "partial", "theorems": ["C4.C81_refuted_make", "C4.C81_refuted_destroy", "C4.C81_make_room_partial", "C4.C81_make_room_pos_partial", "C4.C81_destroy_room_partial", "C4.C81_make_room_to", "C4.C81_destroy_room_to", "C4.C81_destroy_nothing"], "note": "false for empty gaps and types that are not trivial; proved otherwise; removing nothing leaves all elements moved from"},
 {"property": "C82", "status": "partial", "theorems": ["C4.C82_refuted", "C4.C82_refuted_swap", "C4.C82_inplaceFunction_targets_partial", "C4.C82_inplaceFunction_once_partial", "C4.C82_inplaceFunction_all_partial", "C4.C82_throw_assign", "C4.C82_throw_swap", "C4.C82_throw_construct"], "note": "false if a target's constructor throws in an assignment or swap; proved for all other programs; what an exception leaves behind is proved for all functions with targets"},
 {"property": "C83", "status": "partial", "theorems": ["C4.C83_refuted", "C4.C83_refuted_half", "C4.C83_shifts_partial", "C4.C83_refuted_always", "C4.C83_reached_exact", "C4.C83_seeded"], "note": "false for the default state and for every state with its top bit set; proved for the others; with an odd increment an undefined call is reached within 2^64 calls from every state; exactly the generators with the top bit of the state clear and a state no call changes never come to one, of those constructed with a number only that of 0"},
 {"property": "C84", "status": "partial", "theorems": ["C4.C84_pointer_roundtrip", "C4.C84_refuted_count", "C4.C84_refuted_failure", "C4.C84_first_value_partial", "C4.C84_first_exact"], "note": "round trip proved; from_chars_first(T**) returns 1 instead of the count and reads an uninitialized variable on failure (refuted); all texts are classified"},
 {"property": "C85", "status": "partial", "theorems": ["C4.C85_refuted", "C4.C85_value_partial", "C4.C85_exact"], "note": "the returned size is always 1 (refuted); the value read is right; right exactly if gap and value are one character together"},
 {"property": "C86", "status": "proved", "theorems": ["C4.C86_decode"], "note": ""},
 {"property": "C87", "status": "partial", "theorems": ["C4.C87_refuted", "C4.C87_assert_partial", "C4.C87_end", "C4.C87_exact"], "note": "false for 32- and 64-bit index types: the sum wraps; proved where it does not; exactly what the assertion admits: C87_exact"},
 {"property": "C88", "status": "partial", "theorems": ["C4.C88_refuted", "C4.C88_allocate_partial", "C4.C88_reallocate_partial"], "note": "proved for allocate; for reallocate all cases are classified: false only for the last block with an end that wraps around the address space"},
 {"property": "C89", "status": "partial", "theorems": ["C4.C89_refuted", "C4.C89_allocate_partial", "C4.C89_reallocate_partial"], "note": "false for reallocate, which then counts as a release (C89_reallocate_partial); proved for allocate"},
 {"property": "C90", "status": "partial", "theorems": ["C4.C90_refuted", "C4.C90_aligned_partial", "C4.C90_exact"], "note": "false unless the alignment divides sizeof(T); proved for that case; proved: aligned if and only if the bytes before the block are a multiple of the alignment"},
 {"property": "C91", "status": "partial", "theorems": ["C4.C91_refuted", "C4.C91_refuted_single", "C4.C91_refuted_release", "C4.C91_only_block_partial", "C4.C91_place_partial", "C4.C91_overlap_exact"], "note": "false; proved: the only live block keeps its place, and where the new block is in every case; C91_overlap_exact says exactly which live blocks and which next block are overlapped by a block reallocated within the array."},
 {"property": "C92", "status": "partial", "theorems": ["C4.C92_refuted", "C4.C92_request_partial", "C4.C92_smaller"], "note": "false if and only if the product wraps"},
 {"property": "C93", "status": "partial", "theorems": ["C4.C93_refuted", "C4.C93_release_partial", "C4.C93_exact"], "note": "false for an empty block at the end of the array; proved for non-empty blocks under reverse-order release; proved: only a block at the very end of the array is passed on"},
 {"property": "C94", "status": "partial", "theorems": ["C4.C94_refuted", "C4.C94_stream_partial", "C4.C94_stream_zero", "C4.C94_exact"], "note": "false: bits without a symbol are dropped silently; proved if every bit has a symbol, and C94_exact says for all bits which symbols are written"},
 {"property": "C95", "status": "partial", "theorems": ["C4.C95_refuted", "C4.C95_single_bits_partial", "C4.C95_exact"], "note": "false for overlapping composites; proved if every bit has a symbol of its own, and C95_exact says exactly which bits can be written"},
 {"property": "C96", "status": "partial", "theorems": ["C4.C96_refuted", "C4.C96_safe_partial", "C4.C96_undefined"], "note": "undefined if and only if the first item is empty (assertions off); proved for all other strings"},
 {"property": "C97", "status": "partial", "theorems": ["C4.C97_refuted", "C4.C97_numbers_partial", "C4.C97_letters"], "note": "false for hexadecimal numbers with letters, which are all refused (C97_letters); proved for the others"},
 {"property": "C98", "status": "partial", "theorems": ["C4.C98_refuted", "C4.C98_bool_partial", "C4.C98_exact"], "note": "false for empty functions; proved for programs that convert none; exactly which functions are true is proved for all programs without exceptions"},
 {"property": "C99", "status": "partial", "theorems": ["C4.C99_refuted", "C4.C99_all_partial", "C4.C99_exact"], "note": "false whenever elements remain: nothing is destroyed; proved if all are removed; the memory after removing some: C99_exact"}
]}
