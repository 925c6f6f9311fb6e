{"id": "C01", "title": "Decimal writing is canonical and exact", "statement": "For every non-negative value v of an 8/16/32/64-bit integer type and every buffer that is large enough, write_dec(buf, v) stores exactly the canonical base-10 numeral of v (no leading zero unless v is 0, digits evaluate to v) in the first characters, leaves every other byte of the buffer unchanged, never accesses memory outside the buffer, and returns the numeral's length.", "quantifier": "all four widths, all values of each width, all buffers at least as long as the numeral, arbitrary prior buffer contents", "why_tests_cant": "2^64 values times all buffer contents; the loop works on pairs of digits through a lookup table and the length comes from a separately written branch tree, so sampled values do not exclude a wrong boundary.", "anchors": ["src/c4/charconv.hpp:write_dec", "src/c4/charconv.hpp:write_dec_unchecked", "src/c4/charconv.hpp:digits_dec"]}
{"id": "C02", "title": "Hex, octal and binary writing is canonical and exact", "statement": "For every non-negative value v of an 8/16/32/64-bit type and every large enough buffer, write_hex/write_oct/write_bin store exactly the canonical lower-case base-16/8/2 numeral of v, touch nothing else, and return its length.", "quantifier": "three radices, four widths, all values, all large enough buffers with arbitrary contents", "why_tests_cant": "the value domain is 2^64 and the digit count is computed by unrelated code (highest-set-bit or a division loop)", "anchors": ["src/c4/charconv.hpp:write_hex", "src/c4/charconv.hpp:write_oct", "src/c4/charconv.hpp:write_bin", "src/c4/charconv.hpp:write_hex_unchecked"]}
{"id": "C03", "title": "Digit counting functions are exact", "statement": "digits_dec, digits_hex, digits_oct and digits_bin return, for every non-negative value of each integer width, exactly the number of digits of the canonical numeral in that radix.", "quantifier": "all values of 8/16/32/64-bit types in four radices", "why_tests_cant": "a comparison tree with 20 literal thresholds; one misplaced zero is wrong only on a narrow interval", "anchors": ["src/c4/charconv.hpp:digits_dec", "src/c4/charconv.hpp:digits_hex", "src/c4/charconv.hpp:digits_oct", "src/c4/charconv.hpp:digits_bin"]}
{"id": "C04", "title": "Too-small buffers: unsigned and decimal writers do not write and report the needed size", "statement": "When the buffer is shorter than the text, write_dec/hex/oct/bin, utoa(buf,v), utoa(buf,v,radix) and itoa(buf,v) leave the whole buffer unchanged and return the size that makes a second call succeed; the returned size never depends on the buffer.", "quantifier": "all values, all radices, all buffers including the empty one", "why_tests_cant": "the failing buffers are every length below the requirement for every value; a stray write is only visible if the test checks every byte", "anchors": ["src/c4/charconv.hpp:write_dec", "src/c4/charconv.hpp:utoa", "src/c4/charconv.hpp:itoa"]}
{"id": "C05", "title": "Too-small buffers: itoa with a radix performs no write", "statement": "itoa(buf, v, radix) and itoa(buf, v, radix, num_digits) documented as 'no writes will occur' on a too small buffer leave the buffer unchanged and return the needed size.", "quantifier": "all signed values, radices, digit counts and all too-short buffers", "why_tests_cant": "needs the full cross product of value sign, radix and buffer length with a check of every byte", "anchors": ["src/c4/charconv.hpp:itoa", "src/c4/charconv.hpp:detail::_itoa2buf"]}
{"id": "C06", "title": "Zero padded writing", "statement": "write_dec/hex/oct/bin(buf, v, num_digits) produce exactly max(num_digits, digits(v)) characters: the canonical numeral preceded by zeros; the rest of the buffer is unchanged and the returned value is that size. A buffer too short for the padded text is never written out of bounds.", "quantifier": "all values, all requested widths, all buffers", "why_tests_cant": "unbounded widths, overlapping memmove and memset, and the cases where only the number or neither fits", "anchors": ["src/c4/charconv.hpp:write_num_digits", "src/c4/charconv.hpp:write_dec"]}
{"id": "C07", "title": "utoa with radix (and padding) writes prefix plus numeral", "statement": "utoa(buf, v, radix) and utoa(buf, v, radix, num_digits) write exactly the radix prefix (none, 0x, 0o, 0b) followed by the (zero padded) canonical numeral when the buffer is large enough, leave the rest untouched and return the exact size.", "quantifier": "all unsigned values of each width, four radices, all digit counts (the padded form for counts below 2^32-3), all large enough buffers", "why_tests_cant": "cross product of value, radix, padding and buffer length is unbounded", "anchors": ["src/c4/charconv.hpp:utoa"]}
{"id": "C08", "title": "itoa writes sign, prefix and magnitude, including the minimum value", "statement": "itoa(buf, v), itoa(buf, v, radix), itoa(buf, v, radix, num_digits) write '-' exactly for negative v, then the radix prefix, then the (zero padded) canonical numeral of |v|, for every signed value including the type's minimum whose negation overflows; the rest of the buffer is untouched and the returned size is exact.", "quantifier": "all signed values of each width, four radices, all digit counts below 2^32-3, all large enough buffers", "why_tests_cant": "minimum values take a separate table-driven path; every width has its own hand written strings", "anchors": ["src/c4/charconv.hpp:itoa", "src/c4/charconv.hpp:detail::_itoa2buf", "src/c4/charconv.hpp:charconv_digits_"]}
{"id": "C09", "title": "Padded utoa/itoa: requested widths of 2^32 and more", "statement": "The size returned by utoa/itoa with num_digits is at least num_digits for every num_digits representable in size_t.", "quantifier": "all size_t digit counts", "why_tests_cant": "a test would need to ask for 4 GiB wide numbers", "anchors": ["src/c4/charconv.hpp:utoa", "src/c4/charconv.hpp:itoa"]}
{"id": "C10", "title": "read_dec/hex/oct/bin accept exactly digit strings and compute the value modulo the type", "statement": "For every non-empty string, read_dec/read_hex/read_oct/read_bin return true exactly when every character is a digit of the radix, and then the stored value is the positional value of the string reduced modulo 2^width (two's complement for signed types); otherwise they return false.", "quantifier": "all strings of all lengths, all integer widths and signedness, four radices", "why_tests_cant": "unbounded strings; wrap-around behaviour on every overflow amount", "anchors": ["src/c4/charconv.hpp:read_dec", "src/c4/charconv.hpp:read_hex", "src/c4/charconv.hpp:read_oct", "src/c4/charconv.hpp:read_bin"]}
{"id": "C11", "title": "atou accepts exactly the documented language with the right value", "statement": "atou(str,&v) returns true exactly for: a non-empty decimal digit string, or 0x/0X, 0o/0O, 0b/0B followed by at least one digit of that radix; leading '-' or '+' or whitespace or trailing garbage is refused; on success v is the value modulo 2^width. It never reads outside the string.", "quantifier": "all strings, all unsigned widths", "why_tests_cant": "language equality over all strings", "anchors": ["src/c4/charconv.hpp:atou"]}
{"id": "C12", "title": "atoi accepts exactly the documented language with the right value", "statement": "atoi(str,&v) returns true exactly for an optional single '-' followed by a string of the atou language; the stored value is the signed value reduced modulo 2^width; no read outside the string.", "quantifier": "all strings, all signed widths", "why_tests_cant": "language equality over all strings plus negative/zero-leading corner cases at every position", "anchors": ["src/c4/charconv.hpp:atoi"]}
{"id": "C13", "title": "Integer text round trip", "statement": "For every integer value of every width, in every radix and with every zero padding, reading back with atoi/atou (from_chars) the text written by itoa/utoa (to_chars) succeeds and returns the same value - including the minimum of signed types.", "quantifier": "all values x widths x radices x paddings (below 2^32-3 digits when written by the library, see C09)", "why_tests_cant": "2^64 values with unbounded padding; min values rely on wrap-around", "anchors": ["src/c4/charconv.hpp:itoa", "src/c4/charconv.hpp:utoa", "src/c4/charconv.hpp:atoi", "src/c4/charconv.hpp:atou", "src/c4/charconv.hpp:to_chars", "src/c4/charconv.hpp:from_chars"]}
{"id": "C14", "title": "Reading an in-range integer performs no signed overflow", "statement": "For every text whose value is in the range of the signed target type, atoi performs no signed-overflowing multiplication, addition or negation (in the promoted arithmetic type).", "quantifier": "all accepted strings denoting in-range values, widths 8-64", "why_tests_cant": "the overflow only shows under a sanitizer on the exact boundary value and the sources suppress that sanitizer", "anchors": ["src/c4/charconv.hpp:atoi", "src/c4/charconv.hpp:read_dec"]}
{"id": "C15", "title": "overflows<unsigned> is exact", "statement": "For every string accepted by atou, overflows<T>(str) is true exactly when the number denoted by the string does not fit in the unsigned type T.", "quantifier": "all strings of the atou language (any number of leading zeros, any length), widths 8/16/32/64", "why_tests_cant": "strings are unbounded; the check is lexical (length and digit comparison against literal limit strings)", "anchors": ["src/c4/charconv.hpp:overflows", "src/c4/charconv.hpp:check_overflow", "src/c4/charconv.hpp:charconv_digits_"]}
{"id": "C16", "title": "overflows<signed> is exact", "statement": "For every string accepted by atoi, overflows<T>(str) is true exactly when the denoted number is outside the range of the signed type T; and it performs no out-of-bounds read on any string.", "quantifier": "all strings of the atoi language for exactness; all strings for memory safety; widths 8/16/32/64", "why_tests_cant": "unbounded strings; the two halves (negative/non-negative) use different limit tables per radix", "anchors": ["src/c4/charconv.hpp:overflows", "src/c4/charconv.hpp:is_oct_overflow"]}
{"id": "C17", "title": "Overflow-checked reading never returns a wrapped value", "statement": "from_chars(str, fmt::overflow_checked(v)) returns true only if the string denotes a number in the range of the type and then v is exactly that number; it returns false for every out-of-range or malformed string.", "quantifier": "all strings, widths 8-64 signed and unsigned", "why_tests_cant": "wrong acceptance would be a silently wrapped value for some unbounded-length string", "anchors": ["src/c4/format.hpp:overflow_checked", "src/c4/charconv.hpp:overflows"]}
{"id": "C18", "title": "atoi_first/atou_first return the end offset of the number they converted", "statement": "When atoi_first/atou_first return a value n other than npos, the first n characters of the input consist of leading whitespace followed by a text accepted by atoi/atou, the stored value is that text's value, and the number is followed by the end of the string or a delimiter. Whenever the input begins like this, n and the value are returned.", "quantifier": "all strings, all widths", "why_tests_cant": "all strings; the span scanner and the converter are different pieces of code that must agree", "anchors": ["src/c4/charconv.hpp:atoi_first", "src/c4/charconv.hpp:atou_first", "src/c4/substr.hpp:first_int_span", "src/c4/substr.hpp:first_uint_span"]}
{"id": "C19", "title": "Every integral span found by first_int_span is convertible", "statement": "If first_int_span()/first_uint_span() finds a non-empty number in a string, atoi_first/atou_first convert it.", "quantifier": "all strings", "why_tests_cant": "agreement of two hand-written grammars over all strings", "anchors": ["src/c4/substr.hpp:_first_integral_span", "src/c4/charconv.hpp:atoi_first"]}
{"id": "C20", "title": "bool, char and string conversions round trip with bounded writes", "statement": "to_chars for bool, char and strings writes at most the buffer, returns the full size needed, and from_chars of the full text gives back the value; strings longer than the buffer are truncated to a prefix and never overrun.", "quantifier": "all values, all strings, all buffers", "why_tests_cant": "all buffer sizes and contents", "anchors": ["src/c4/charconv.hpp:to_chars", "src/c4/charconv.hpp:from_chars", "src/c4/std/string.hpp:to_chars", "src/c4/std/vector.hpp:to_chars"]}
{"id": "C21", "title": "from_chars_first(bool) accepts leading whitespace like the other overloads", "statement": "from_chars_first(str, bool*) skips leading whitespace, converts the first non-empty span and returns the number of characters up to the end of that span.", "quantifier": "all strings", "why_tests_cant": "all strings with any amount of leading whitespace", "anchors": ["src/c4/charconv.hpp:from_chars_first"]}
{"id": "C22", "title": "Hexadecimal floating point scanning computes the C value", "statement": "scan_rhex (used by atof/atod for 0x-prefixed text when fast_float is active) computes the mathematical value of mantissa and binary exponent for every well formed hexadecimal float.", "quantifier": "all hexadecimal float strings", "why_tests_cant": "unbounded strings; tests use only digits 0-9 / p+0", "anchors": ["src/c4/charconv.hpp:scan_rhex"]}
{"id": "C23", "title": "msb and lsb are exact", "statement": "For every non-zero value of every width, msb returns the index of the highest set bit and lsb the index of the lowest set bit; the compile-time versions msb11/lsb11 agree.", "quantifier": "all non-zero values, widths 8-64", "why_tests_cant": "2^64 values; the portable fallback uses branch/shift folding per width", "anchors": ["src/c4/memory_util.hpp:msb", "src/c4/memory_util.hpp:lsb", "src/c4/memory_util.hpp:msb11", "src/c4/memory_util.hpp:lsb11"]}
{"id": "C24", "title": "ipow is integer power", "statement": "ipow(base, e) for a non-negative exponent is base^e reduced modulo the type's width; for a negative exponent it is the repeated truncating division of 1 by base; all overloads (run-time base, compile-time base, exponent types) agree.", "quantifier": "all bases and exponents", "why_tests_cant": "unbounded loop over exponent", "anchors": ["src/c4/memory_util.hpp:ipow"]}
{"id": "C25", "title": "contiguous_mask sets exactly bits [first,last)", "statement": "contiguous_mask(first,last) has bit i set iff first <= i < last (within the type), and contiguous_mask11<first,last>() agrees.", "quantifier": "all first, last within the type width, all widths", "why_tests_cant": "quadratic in positions for every type; compile-time recursion is separate code", "anchors": ["src/c4/memory_util.hpp:contiguous_mask", "src/c4/memory_util.hpp:contiguous_mask11"]}
{"id": "C26", "title": "mem_repeat tiles the destination", "statement": "mem_repeat(dest, pattern, psz, n) fills exactly psz*n bytes of dest with n copies of the pattern and touches nothing else, with no overlapping memcpy.", "quantifier": "all patterns, sizes and repeat counts", "why_tests_cant": "the doubling loop has a different last chunk for each count; unbounded", "anchors": ["src/c4/memory_util.cpp:mem_repeat"]}
{"id": "C27", "title": "mem_overlaps is exact", "statement": "mem_overlaps(a,b,sza,szb) is true iff two non-empty ranges [a,a+sza) and [b,b+szb) share an address.", "quantifier": "all addresses and sizes", "why_tests_cant": "relative positions of two intervals are unbounded", "anchors": ["src/c4/memory_util.hpp:mem_overlaps"]}
{"id": "C28", "title": "String comparison is a total lexicographic order", "statement": "compare() and the derived operators ==,!=,<,<=,>,>= form a total order on strings that is lexicographic on characters with a proper prefix ordered first; compare()==0 exactly for equal contents; swapping the arguments flips the sign.", "quantifier": "all pairs/triples of strings (including empty and null)", "why_tests_cant": "transitivity and antisymmetry over all triples", "anchors": ["src/c4/substr.hpp:compare", "src/c4/substr.hpp:operator==", "src/c4/substr.hpp:operator<"]}
{"id": "C29", "title": "find and character searches return the extremal match", "statement": "find(sub), find(char), first_of, last_of, first_not_of, last_not_of (char and char-set forms, with start positions) return the smallest/largest index satisfying the match condition, or npos exactly when there is none; no read outside the string.", "quantifier": "all strings, patterns, sets and start positions", "why_tests_cant": "all strings and patterns", "anchors": ["src/c4/substr.hpp:find", "src/c4/substr.hpp:first_of", "src/c4/substr.hpp:last_of", "src/c4/substr.hpp:first_not_of", "src/c4/substr.hpp:last_not_of"]}
{"id": "C30", "title": "count counts", "statement": "count(c,pos) is the number of occurrences of c at or after pos; count(sub,pos) is the number of leftmost non-overlapping occurrences at or after pos; both terminate for every argument.", "quantifier": "all strings, patterns, positions", "why_tests_cant": "termination and exactness over all strings/patterns", "anchors": ["src/c4/substr.hpp:count"]}
{"id": "C31", "title": "trim removes maximal runs and nothing else", "statement": "triml/trimr/trim(c or set) return the unique sub-view obtained by removing the maximal leading/trailing run of matching characters; the result is a contiguous part of the original view.", "quantifier": "all strings and sets", "why_tests_cant": "all strings", "anchors": ["src/c4/substr.hpp:triml", "src/c4/substr.hpp:trimr", "src/c4/substr.hpp:trim"]}
{"id": "C32", "title": "begins_with/ends_with and stripl/stripr agree with prefix/suffix", "statement": "begins_with(p) iff p is a prefix, ends_with(p) iff p is a suffix (also the any-of and repeated-char forms); stripl/stripr remove exactly one occurrence when present and otherwise return the view unchanged.", "quantifier": "all strings and patterns", "why_tests_cant": "all pairs of strings", "anchors": ["src/c4/substr.hpp:begins_with", "src/c4/substr.hpp:ends_with", "src/c4/substr.hpp:stripl", "src/c4/substr.hpp:stripr"]}
{"id": "C33", "title": "Sub-view selectors stay inside and partition the view", "statement": "sub, range, first, last, offs, left_of, right_of (position and sub-view forms) return views inside the original for all arguments the assertions admit, and left_of(pos)+[pos]+right_of(pos) reconstructs the original contents.", "quantifier": "all views and all arguments admitted by the assertions", "why_tests_cant": "index arithmetic with npos wrap-around on all positions", "anchors": ["src/c4/substr.hpp:sub", "src/c4/substr.hpp:range", "src/c4/substr.hpp:first", "src/c4/substr.hpp:last", "src/c4/substr.hpp:offs", "src/c4/substr.hpp:left_of", "src/c4/substr.hpp:right_of"]}
{"id": "C34", "title": "split is the inverse of join", "statement": "Iterating str.split(sep) over a non-empty string yields exactly count(sep)+1 pieces, none containing sep, which joined with sep give back the string; over an empty string it yields none; iteration always terminates and never reads outside the string.", "quantifier": "all strings and separators", "why_tests_cant": "all strings; iterator end conditions at trailing separators", "anchors": ["src/c4/substr.hpp:split", "src/c4/substr.hpp:split_proxy", "src/c4/substr.hpp:next_split"]}
{"id": "C35", "title": "next_split enumerates the same pieces as split", "statement": "The loop `pos=0; while(str.next_split(sep,&pos,&out))` terminates and produces exactly the pieces of split(sep).", "quantifier": "all strings and separators", "why_tests_cant": "all strings; a stateful protocol driven by the caller", "anchors": ["src/c4/substr.hpp:next_split"]}
{"id": "C36", "title": "pop/gpop/basename/dirname decompose the string at separators", "statement": "pop_right/pop_left return the part after the last / before the first separator (optionally skipping empty trailing/leading parts) and gpop_left/gpop_right the complementary part, such that gpop and pop reassemble the string around one separator; basename/dirname satisfy dirname + basename == path for paths without trailing separator.", "quantifier": "all strings, separators and flags", "why_tests_cant": "all strings with arbitrary runs of separators", "anchors": ["src/c4/substr.hpp:pop_right", "src/c4/substr.hpp:pop_left", "src/c4/substr.hpp:gpop_left", "src/c4/substr.hpp:gpop_right", "src/c4/substr.hpp:basename", "src/c4/substr.hpp:dirname"]}
{"id": "C37", "title": "reverse family", "statement": "reverse() reverses the view in place, reverse_sub/reverse_range reverse exactly the designated part and leave the rest unchanged; reversing twice restores the contents.", "quantifier": "all strings and ranges", "why_tests_cant": "all lengths and ranges", "anchors": ["src/c4/substr.hpp:reverse", "src/c4/substr.hpp:reverse_sub", "src/c4/substr.hpp:reverse_range"]}
{"id": "C38", "title": "erase family", "statement": "erase(pos,num)/erase_range(first,last) move the tail down so that the returned view is the original without the erased part; bytes beyond the returned view inside the buffer are not modified outside the move.", "quantifier": "all strings, positions and counts admitted", "why_tests_cant": "all lengths and ranges with overlapping memmove", "anchors": ["src/c4/substr.hpp:erase", "src/c4/substr.hpp:erase_range"]}
{"id": "C39", "title": "replace(chars) replaces exactly matching characters", "statement": "replace(c, repl, pos) and replace(set, repl, pos) change exactly the matching characters at or after pos, leave all others, and return how many were changed.", "quantifier": "all strings, sets, positions", "why_tests_cant": "all strings", "anchors": ["src/c4/substr.hpp:replace"]}
{"id": "C40", "title": "replace_all implements leftmost non-overlapping substitution with a size protocol", "statement": "replace_all(dst, pattern, repl, pos) returns the size of the substituted string independent of dst, and when dst is large enough writes exactly that string; dst is never overrun.", "quantifier": "all strings, patterns (non-empty), replacements, positions and destination sizes", "why_tests_cant": "all strings and patterns; size/bounds arithmetic", "anchors": ["src/c4/substr.hpp:replace_all"]}
{"id": "C41", "title": "pair_range finds the delimited range", "statement": "pair_range(open,close) returns the sub-view from the first `open` to the first following `close` inclusive; pair_range_nested returns the sub-view from the first `open` to its balancing `close` (with the same character for both there is none); pair_range_esc skips escaped closers; otherwise an empty view.", "quantifier": "all strings and delimiters", "why_tests_cant": "nesting depth and escapes unbounded", "anchors": ["src/c4/substr.hpp:pair_range", "src/c4/substr.hpp:pair_range_nested", "src/c4/substr.hpp:pair_range_esc"]}
{"id": "C42", "title": "unquoted strips exactly one pair of matching quotes", "statement": "unquoted() removes one pair of equal surrounding quotes (single or double) and otherwise returns the view unchanged.", "quantifier": "all strings", "why_tests_cant": "all strings", "anchors": ["src/c4/substr.hpp:unquoted"]}
{"id": "C43", "title": "Integral span scanner: result is an exact number token", "statement": "first_uint_span/first_int_span return either an empty view or the sub-view starting at the first non-whitespace character that is a full integer token (optional sign, radix prefix, digits) followed by a delimiter or the end.", "quantifier": "all strings", "why_tests_cant": "token grammar over all strings", "anchors": ["src/c4/substr.hpp:first_uint_span", "src/c4/substr.hpp:first_int_span", "src/c4/substr.hpp:_first_integral_span"]}
{"id": "C44", "title": "is_unsigned_integer/is_integer/is_number agree with the spans", "statement": "is_unsigned_integer()/is_integer() hold exactly if the whole string is a single integer token; an integer is a number.", "quantifier": "all strings", "why_tests_cant": "agreement over all strings", "anchors": ["src/c4/substr.hpp:is_integer", "src/c4/substr.hpp:is_unsigned_integer", "src/c4/substr.hpp:is_number", "src/c4/substr.hpp:is_real"]}
{"id": "C45", "title": "Real span scanner never leaves the string and returns a prefix token", "statement": "first_real_span() never reads outside the string and returns an empty view or a view starting at the first non-whitespace character which is followed by a delimiter or the end; when it is purely digits with optional sign it is the full digit run.", "quantifier": "all strings", "why_tests_cant": "many-state hand written scanner; memory safety over all strings", "anchors": ["src/c4/substr.hpp:first_real_span", "src/c4/substr.hpp:_first_real_span_dec", "src/c4/substr.hpp:_first_real_span_hex"]}
{"id": "C46", "title": "Sub-view relations", "statement": "is_sub/is_super hold exactly when one view's address range is contained in the other's; overlaps holds exactly when the two views share at least one character.", "quantifier": "all pairs of views", "why_tests_cant": "relative positions of two ranges unbounded", "anchors": ["src/c4/substr.hpp:is_super", "src/c4/substr.hpp:is_sub", "src/c4/substr.hpp:overlaps"]}
{"id": "C47", "title": "first_of_any returns the earliest of several patterns", "statement": "first_of_any(s0,s1,...) reports a match iff some pattern occurs, with pos the smallest position where any pattern occurs and which one a pattern occurring there.", "quantifier": "all strings and pattern lists", "why_tests_cant": "all strings and patterns", "anchors": ["src/c4/substr.hpp:first_of_any"]}
{"id": "C48", "title": "In-place case conversion, fill and copy_from", "statement": "toupper/tolower change exactly ASCII letters; fill sets all characters; copy_from copies min(len) characters at the given position; none changes anything else.", "quantifier": "all strings and arguments", "why_tests_cant": "all contents", "anchors": ["src/c4/substr.hpp:toupper", "src/c4/substr.hpp:tolower", "src/c4/substr.hpp:fill", "src/c4/substr.hpp:copy_from"]}
{"id": "C49", "title": "cat writes the concatenation, bounded, and returns the needed size", "statement": "cat(buf, args...) for any list of arguments never writes outside buf, returns a size that does not depend on buf, and if that size is <= buf.len the first bytes of buf are exactly the concatenation of the arguments' texts and the rest is unchanged.", "quantifier": "all argument lists (any number), all buffers", "why_tests_cant": "variadic recursion over any number of arguments x all buffer sizes", "anchors": ["src/c4/format.hpp:cat", "src/c4/format.hpp:cat_sub"]}
{"id": "C50", "title": "catsep writes the separated concatenation, bounded, and returns the needed size", "statement": "catsep(buf, sep, args...) behaves as C49 with sep between consecutive arguments.", "quantifier": "all argument lists, separators, buffers", "why_tests_cant": "as C49", "anchors": ["src/c4/format.hpp:catsep", "src/c4/format.hpp:catsep_more"]}
{"id": "C51", "title": "format substitutes arguments in order, bounded, and returns the needed size", "statement": "format(buf, fmt, args...) replaces successive {} by the arguments in order, copies all other text verbatim, ignores surplus arguments, keeps surplus {} literally, never writes outside buf and returns a size independent of buf; when the size fits the output is exactly the substituted text.", "quantifier": "all format strings, argument lists and buffers", "why_tests_cant": "all format strings x argument counts x buffer sizes", "anchors": ["src/c4/format.hpp:format"]}
{"id": "C52", "title": "Resizing variants terminate with the exact text", "statement": "catrs/catseprs/formatrs resize the container at most to the needed size, terminate after at most one retry, and leave the container equal to the text; the append variants keep the previous contents as prefix.", "quantifier": "all argument lists, initial container sizes", "why_tests_cant": "a retry loop that recurses until it fits", "anchors": ["src/c4/format.hpp:catrs", "src/c4/format.hpp:catseprs", "src/c4/format.hpp:formatrs", "src/c4/format.hpp:catrs_append"]}
{"id": "C53", "title": "uncatsep inverts catsep and unformat inverts format for integers", "statement": "For every list of integers, reading back with uncatsep (single-character separator) or unformat the text produced by catsep/format returns the same integers and consumes the whole text.", "quantifier": "all integer lists, all separators that are delimiters for the scanner", "why_tests_cant": "unbounded lists of 2^64 values", "anchors": ["src/c4/format.hpp:uncatsep", "src/c4/format.hpp:unformat", "src/c4/format.hpp:uncat"]}
{"id": "C54", "title": "Alignment padding respects the buffer", "statement": "to_chars(buf, fmt::left(v,w)) / fmt::right(v,w) never write outside buf, return max(w,size) and when it fits the text is v padded to width w on the proper side.", "quantifier": "all values, widths, pad characters and buffers", "why_tests_cant": "all width/buffer/size orderings", "anchors": ["src/c4/format.hpp:left_", "src/c4/format.hpp:right_"]}
{"id": "C55", "title": "Raw binary output/input round trip", "statement": "to_chars/from_chars with fmt::raw copy the value bytes at the next aligned position if they fit there, never access outside the buffer, return a size that is within the buffer exactly when the bytes were stored and is always sufficient, and reading the buffer returns the same bytes.", "quantifier": "all values, alignments, buffer addresses and sizes", "why_tests_cant": "alignment depends on the run-time address", "anchors": ["src/c4/format.cpp:to_chars", "src/c4/format.cpp:from_chars", "src/c4/format.hpp:raw_wrapper"]}
{"id": "C56", "title": "base64_encode produces the RFC 4648 encoding with bounded writes", "statement": "base64_encode(buf,data) returns 4*ceil(n/3) and, if the buffer is large enough, writes exactly the RFC 4648 encoding with padding; it never writes outside the buffer for any buffer size.", "quantifier": "all byte strings, all buffers", "why_tests_cant": "all byte strings", "anchors": ["src/c4/base64.cpp:base64_encode"]}
{"id": "C57", "title": "base64 round trip", "statement": "base64_decode(base64_encode(data)) returns data for every byte string, and base64_valid accepts every encoder output.", "quantifier": "all byte strings of all lengths", "why_tests_cant": "all byte strings", "anchors": ["src/c4/base64.cpp:base64_encode", "src/c4/base64.cpp:base64_decode", "src/c4/base64.cpp:base64_valid"]}
{"id": "C58", "title": "base64_decode writes are bounded and the size is reported independent of the buffer", "statement": "For every text which base64_valid accepts (the asserted precondition) and every buffer base64_decode never writes outside the buffer, and the returned size does not depend on the buffer. In release mode the same holds for every other text too, except that a length which is no multiple of four is reported, and that the lookup table is read out of bounds exactly if one of the characters standing for data - those before the first quartet padded in its third or fourth place, and before the padding in it - is above 127.", "quantifier": "all texts and buffers", "why_tests_cant": "all texts including malformed ones", "anchors": ["src/c4/base64.cpp:base64_decode"]}
{"id": "C59", "title": "base64_valid accepts only well formed encodings", "statement": "base64_valid(text) is true only if text is a well formed padded base64 string (padding only in the last one or two positions of the last group).", "quantifier": "all texts", "why_tests_cant": "language inclusion over all strings", "anchors": ["src/c4/base64.cpp:base64_valid"]}
{"id": "C60", "title": "Code points are encoded as UTF-8", "statement": "decode_code_point(buf, code) writes exactly the UTF-8 encoding of every Unicode scalar value and returns its length (1-4); values above 0x10FFFF write nothing and return 0; no more than 4 bytes are written.", "quantifier": "all 2^32 code values", "why_tests_cant": "the boundaries of four ranges and bit packing for 1.1M code points; encodings must be pairwise distinct and self-delimiting", "anchors": ["src/c4/utf.cpp:decode_code_point"]}
{"id": "C61", "title": "Resizable spans with history recover the original buffer", "statement": "After any sequence of subspan/range/first/last/resize/ltrim/rtrim operations (arguments in range) on a spanrsl, original() is the view the sequence started from, and the span always lies inside it.", "quantifier": "all operation sequences of any length", "why_tests_cant": "all histories", "anchors": ["src/c4/span.hpp:spanrsl", "src/c4/span.hpp:original"]}
{"id": "C62", "title": "Spans never exceed their capacity", "statement": "For span and spanrs, after any sequence of operations with arguments in range the viewed range [data,data+size) and the growth range [data,data+capacity) stay inside the initial range, and every selection shows exactly the elements asked for.", "quantifier": "all operation sequences", "why_tests_cant": "all histories", "anchors": ["src/c4/span.hpp:span", "src/c4/span.hpp:spanrs"]}
{"id": "C63", "title": "Span comparison", "statement": "operator== on spans holds exactly when sizes and all elements agree; operator< is lexicographic.", "quantifier": "all pairs of spans", "why_tests_cant": "all pairs of spans; pre-C++14 build uses different code", "anchors": ["src/c4/span.hpp:operator==", "src/c4/span.hpp:operator<"]}
{"id": "C64", "title": "cat_dump/catsep_dump/format_dump stream all arguments in order", "statement": "If the scratch buffer is not empty and at least as large as the reported requirement, the sink receives exactly the concatenation (separated / formatted) of the arguments; the reported requirement does not depend on the buffer. With a smaller buffer the sink receives a prefix of that text, with an empty one nothing.", "quantifier": "all argument lists and buffers", "why_tests_cant": "any number of arguments mixed strings/non-strings", "anchors": ["src/c4/dump.hpp:cat_dump", "src/c4/dump.hpp:catsep_dump", "src/c4/dump.hpp:format_dump"]}
{"id": "C65", "title": "cat_dump_resume delivers every argument exactly once, in order", "statement": "Calling cat_dump_resume with a growing buffer until it reports success sends to the sink exactly the concatenation of the arguments, once each, in order.", "quantifier": "all argument lists and buffer histories", "why_tests_cant": "all histories of failures and retries", "anchors": ["src/c4/dump.hpp:cat_dump_resume", "src/c4/dump.hpp:DumpResults"]}
{"id": "C66", "title": "catsep_dump_resume and format_dump_resume lose nothing", "statement": "Calling catsep_dump_resume / format_dump_resume with a growing buffer until success sends exactly the separated / formatted text once.", "quantifier": "all argument lists, format strings and buffer histories", "why_tests_cant": "all histories of failures and retries", "anchors": ["src/c4/dump.hpp:catsep_dump_resume", "src/c4/dump.hpp:format_dump_resume"]}
{"id": "C67", "title": "The linear memory resource hands out disjoint aligned blocks inside its buffer", "statement": "After any sequence of allocate/deallocate/reallocate calls, every live block returned by MemoryResourceLinear lies inside the buffer, is aligned as requested, and live blocks are pairwise disjoint; out-of-memory is reported rather than overrunning; after clear() the whole buffer is available again (sizes within the address space, reallocation with the alignment of the block).", "quantifier": "all call sequences, sizes and alignments, all buffer base addresses", "why_tests_cant": "all call histories", "anchors": ["src/c4/memory_resource.cpp:MemoryResourceLinear::do_allocate", "src/c4/memory_resource.cpp:MemoryResourceLinear::do_reallocate"]}
{"id": "C68", "title": "Reallocation preserves the old contents", "statement": "reallocate(ptr, oldsz, newsz) on MemoryResourceLinear and the default arealloc return a block whose first min(oldsz,newsz) bytes equal the old block's.", "quantifier": "all contents, sizes and allocator states", "why_tests_cant": "depends on allocator history", "anchors": ["src/c4/memory_resource.cpp:do_reallocate", "src/c4/memory_resource.cpp:arealloc_impl"]}
{"id": "C69", "title": "Owned linear memory is acquired from and returned to the parent resource", "statement": "acquire(sz) on a live MemoryResourceLinear obtains sz bytes from the parent resource, and release() returns the owned chunk to it exactly once.", "quantifier": "all histories of acquire/release", "why_tests_cant": "virtual dispatch differs between construction and normal operation", "anchors": ["src/c4/memory_resource.cpp:_MemoryResourceSingleChunk::acquire", "src/c4/memory_resource.cpp:_MemoryResourceSingleChunk::release"]}
{"id": "C70", "title": "Allocation counters are exact", "statement": "After any sequence of successful calls on MemoryResourceCounts, curr is the number and total size of live blocks, total the number and size of all allocations, max the componentwise maximum of curr over the history; and curr <= max <= total.", "quantifier": "all call sequences", "why_tests_cant": "all histories", "anchors": ["src/c4/memory_resource.hpp:MemoryResourceCounts", "src/c4/memory_resource.hpp:AllocationCounts"]}
{"id": "C71", "title": "SmallAllocator never hands out overlapping live blocks", "statement": "After any sequence of allocate/deallocate calls on SmallAllocator, in any order of release, live blocks are pairwise disjoint.", "quantifier": "all call sequences", "why_tests_cant": "all histories", "anchors": ["src/c4/allocator.hpp:SmallAllocator"]}
{"id": "C72", "title": "Scoped memory resources nest", "statement": "After any properly nested sequence of ScopedMemoryResource / ScopedMemoryResourceCounts constructions and destructions the global resource is the one before the outermost scope, and inside it is the one installed by the innermost scope.", "quantifier": "all nestings", "why_tests_cant": "unbounded nesting", "anchors": ["src/c4/memory_resource.hpp:ScopedMemoryResource", "src/c4/memory_resource.hpp:ScopedMemoryResourceCounts"]}
{"id": "C73", "title": "Enum to string and back", "statement": "For every enum symbol table with pairwise distinct values and names, str2e(e2str(v)) == v, also for names with the class/prefix offset removed; e2str of a value not in the table is an error.", "quantifier": "all tables and symbols", "why_tests_cant": "all tables", "anchors": ["src/c4/enum.hpp:str2e", "src/c4/enum.hpp:e2str", "src/c4/enum.hpp:Sym::cmp"]}
{"id": "C74", "title": "Finding an enum symbol by (string,length) matches whole names only", "statement": "EnumSymbols::find(s,len) returns a symbol only if its name (full or with an offset removed) equals the given string.", "quantifier": "all tables and strings", "why_tests_cant": "all pairs", "anchors": ["src/c4/enum.hpp:find", "src/c4/enum.hpp:cmp"]}
{"id": "C75", "title": "Bitmask to string covers exactly the bits", "statement": "When bm2str succeeds, the symbols it writes OR together to exactly the given bits, each contributing a new bit; the size query call returns exactly the size needed and written by the second call.", "quantifier": "all tables, all bit patterns, all buffer sizes", "why_tests_cant": "all tables and patterns; composite symbols", "anchors": ["src/c4/bitmask.hpp:bm2str", "src/c4/bitmask.hpp:bm2stream"]}
{"id": "C76", "title": "Bitmask string round trip", "statement": "str2bm(bm2str(bits)) == bits for every bits for which bm2str succeeds.", "quantifier": "all tables and bit patterns", "why_tests_cant": "all tables and patterns", "anchors": ["src/c4/bitmask.hpp:str2bm", "src/c4/bitmask.hpp:bm2str"]}
{"id": "C77", "title": "hash_bytes is FNV-1a and incremental", "statement": "Feeding data in any number of chunks gives the same digest as feeding it at once, and each byte step is a bijection of the state.", "quantifier": "all byte strings and all ways to chunk them", "why_tests_cant": "all chunkings", "anchors": ["src/c4/hash.hpp:basic_fnv1a", "src/c4/hash.hpp:hash_bytes"]}
{"id": "C78", "title": "szconv preserves values", "statement": "szconv<Out>(n) returns n for every non-negative n representable in Out and asserts otherwise, for every pair of integral types.", "quantifier": "all pairs of types and values", "why_tests_cant": "all type pairs and values", "anchors": ["src/c4/szconv.hpp:szconv", "src/c4/szconv.hpp:is_narrower_size"]}
{"id": "C79", "title": "make_integer_sequence generates 0..N-1", "statement": "The C++11 make_integer_sequence<N> is exactly the sequence 0,1,...,N-1.", "quantifier": "all N", "why_tests_cant": "template recursion over all N", "anchors": ["src/c4/types.hpp:make_integer_sequence", "src/c4/types.hpp:__make"]}
{"id": "C80", "title": "Size padding helpers", "statement": "MinSized/MultSized/MinMultSized produce the smallest padding giving at least Min bytes / a multiple of Mult.", "quantifier": "all sizes", "why_tests_cant": "all sizes", "anchors": ["src/c4/types.hpp:min_remainder", "src/c4/types.hpp:mult_remainder"]}
{"id": "C81", "title": "make_room and destroy_room shift elements without loss", "statement": "make_room(buf,n,room) moves the n elements up by room preserving order for every overlap; destroy_room(buf,n,room) moves the remaining elements down; the out-of-place forms copy around the gap; trivial and non-trivial element paths agree.", "quantifier": "all contents, sizes, gaps", "why_tests_cant": "overlap cases for all sizes", "anchors": ["src/c4/ctor_dtor.hpp:make_room", "src/c4/ctor_dtor.hpp:destroy_room"]}
{"id": "C82", "title": "inplace_function constructs and destroys its target exactly once", "statement": "Over any sequence of constructions, copies, moves, assignments, swaps and destructions of inplace_function objects every stored target is destroyed exactly once, and invoking runs the last assigned target.", "quantifier": "all operation sequences", "why_tests_cant": "all histories", "anchors": ["src/c4/ext/sg14/inplace_function.h:inplace_function"]}
{"id": "C83", "title": "Random generators have defined behaviour", "statement": "pcg::operator() performs only defined shifts for every state.", "quantifier": "all 2^64 states", "why_tests_cant": "undefined shifts are invisible on common hardware", "anchors": ["src/c4/ext/rng/rng.hpp:pcg"]}
{"id": "C84", "title": "Pointers round trip and from_chars_first reports what it read", "statement": "to_chars of a pointer followed by from_chars gives the same address; from_chars_first(T**) skips blanks, returns the number of characters read or npos, and stores the pointer only on success.", "quantifier": "all addresses, all strings", "why_tests_cant": "all addresses; the failure path reads an uninitialized variable", "anchors": ["src/c4/charconv.hpp:to_chars", "src/c4/charconv.hpp:from_chars_first"]}
{"id": "C85", "title": "from_chars_first of raw data reports what it read", "statement": "from_chars_first(buf, fmt::raw(v)) reads the value at the next aligned position and returns the number of characters consumed (alignment gap plus size).", "quantifier": "all values, alignments, buffer addresses and sizes", "why_tests_cant": "alignment depends on the run-time address", "anchors": ["src/c4/format.hpp:from_chars_first", "src/c4/format.cpp:from_chars"]}
{"id": "C86", "title": "base64_decode yields the bytes the text stands for", "statement": "For every well formed base64 text (full quartets of letters, the last one possibly padded, any value of the unused bits) there is exactly one byte string whose bits are the leading bits of the text, and base64_decode returns its length and stores as much of it as fits.", "quantifier": "all well formed texts, all buffers", "why_tests_cant": "tests decode texts made by the encoder, where the unused bits are zero", "anchors": ["src/c4/base64.cpp:base64_decode"]}
{"id": "C87", "title": "Span assertions reject out-of-range selections", "statement": "The assertions of subspan(first, num) admit only selections with first + num <= size, for every index type.", "quantifier": "all sizes and arguments representable in the index type", "why_tests_cant": "needs arguments near the top of the index type", "anchors": ["src/c4/span.hpp:subspan"]}
{"id": "C88", "title": "The linear resource reports requests that exceed the address space", "statement": "allocate and reallocate on MemoryResourceLinear succeed only if the requested size fits in the buffer, for every size_t.", "quantifier": "all histories and all 2^64 sizes", "why_tests_cant": "needs sizes near SIZE_MAX in a particular allocator state", "anchors": ["src/c4/memory_resource.cpp:MemoryResourceLinear::do_reallocate", "src/c4/memory_resource.cpp:MemoryResourceLinear::do_allocate"]}
{"id": "C89", "title": "A failed call leaves the allocation counters unchanged", "statement": "If the counted resource reports an error from allocate or reallocate, the counters of MemoryResourceCounts still describe the live blocks.", "quantifier": "all histories", "why_tests_cant": "needs a failing resource and an error callback that throws", "anchors": ["src/c4/memory_resource.hpp:MemoryResourceCounts::do_reallocate", "src/c4/memory_resource.hpp:MemoryResourceCounts::do_allocate"]}
{"id": "C90", "title": "SmallAllocator returns aligned memory", "statement": "The address returned by SmallAllocator::allocate(n, alignment) is a multiple of alignment.", "quantifier": "all element sizes, alignments and histories", "why_tests_cant": "depends on the number of objects allocated before", "anchors": ["src/c4/allocator.hpp:SmallAllocator::allocate"]}
{"id": "C91", "title": "SmallAllocator::reallocate keeps blocks apart", "statement": "The block returned by SmallAllocator::reallocate does not overlap other live blocks nor blocks allocated later while it is live.", "quantifier": "all histories", "why_tests_cant": "needs more than one block", "anchors": ["src/c4/allocator.hpp:SmallAllocator::reallocate"]}
{"id": "C92", "title": "Allocator requests enough memory", "statement": "Allocator<T>::allocate(n) asks its resource for n*sizeof(T) bytes or reports an error.", "quantifier": "all n and element sizes", "why_tests_cant": "needs counts near 2^64/sizeof(T)", "anchors": ["src/c4/allocator.hpp:Allocator::allocate", "src/c4/allocator.hpp:size_for"]}
{"id": "C93", "title": "SmallAllocator returns to its resource exactly what came from it", "statement": "SmallAllocator::deallocate passes a block to the memory resource exactly if allocate obtained it from there.", "quantifier": "all histories", "why_tests_cant": "needs an empty block after a full array", "anchors": ["src/c4/allocator.hpp:SmallAllocator::deallocate"]}
{"id": "C94", "title": "Streamed bitmask covers the bits", "statement": "bm2stream writes the names of symbols of the table whose OR is exactly the given bits, or reports an error.", "quantifier": "all tables, all bit patterns", "why_tests_cant": "all tables and patterns", "anchors": ["src/c4/bitmask.hpp:bm2stream"]}
{"id": "C95", "title": "Every union of symbols can be written", "statement": "bm2str succeeds, given a large enough buffer, for every bit pattern that is the OR of symbols of the table.", "quantifier": "all tables, all bit patterns", "why_tests_cant": "needs overlapping composite symbols", "anchors": ["src/c4/bitmask.hpp:bm2str"]}
{"id": "C96", "title": "Reading a bitmask is defined for every string", "statement": "str2bm returns a value or reports an error for every string (also in builds without assertions).", "quantifier": "all tables, all strings", "why_tests_cant": "needs an empty first item", "anchors": ["src/c4/bitmask.hpp:str2bm"]}
{"id": "C97", "title": "Bitmask strings with numbers", "statement": "str2bm of names and decimal or hexadecimal numbers joined by '|' gives the OR of the values of the names and of the numbers.", "quantifier": "all tables, all lists of names and numbers, all underlying types", "why_tests_cant": "all mixtures of names and numbers", "anchors": ["src/c4/bitmask.hpp:str2bm", "src/c4/bitmask.hpp:detail::str2bm_read_one"]}
{"id": "C98", "title": "Conversion between capacities keeps emptiness", "statement": "An inplace_function converted to one of a larger capacity is empty (compares equal to nullptr) exactly if the original is.", "quantifier": "all functions, capacities and chains of conversions", "why_tests_cant": "all histories; depends on the address of a static object per class", "anchors": ["src/c4/ext/sg14/inplace_function.h:inplace_function"]}
{"id": "C99", "title": "destroy_room ends the lifetime of the removed elements", "statement": "destroy_room(buf,n,room) destroys exactly room elements: afterwards the first n-room slots hold live objects and the last room slots are raw memory, as make_room and the destructor of a container expect.", "quantifier": "all sizes and gaps", "why_tests_cant": "needs an account of object lifetimes for all sizes", "anchors": ["src/c4/ctor_dtor.hpp:destroy_room"]}
{"id": "C100", "title": "Hash of a string literal", "statement": "hash_bytes(\"text\") (the overload for character arrays) is hash_bytes(text, length of the text).", "quantifier": "all texts", "why_tests_cant": "all texts", "anchors": ["src/c4/hash.hpp:hash_bytes"]}
{"id": "C101", "title": "pcg goes through all its states", "statement": "However a pcg is constructed, its state returns to its initial value after exactly 2^64 calls and not before.", "quantifier": "all seeds and numbers of calls", "why_tests_cant": "2^64 calls", "anchors": ["src/c4/ext/rng/rng.hpp:pcg"]}
{"id": "C102", "title": "splitmix goes through all its states", "statement": "The state of splitmix returns to its initial value after exactly 2^64 calls and not before, for every seed, and different states are mixed to different 64-bit values.", "quantifier": "all seeds, numbers of calls and pairs of states", "why_tests_cant": "2^64 calls and 2^128 pairs", "anchors": ["src/c4/ext/rng/rng.hpp:splitmix"]}
{"id": "C103", "title": "xorshift goes through all its non-zero states", "statement": "The step of xorshift is injective and never reaches the state zero from a non-zero one, in any number of calls. From every non-zero state, the state returns after exactly the multiples of 2^64 - 1 calls.", "quantifier": "all states and numbers of calls", "why_tests_cant": "all states and histories", "anchors": ["src/c4/ext/rng/rng.hpp:xorshift"]}
{"id": "C104", "title": "Wide characters needed for a number of bytes", "statement": "num_needed_chars<wchar_t>(n) is the smallest number of wchar_t with room for n bytes, for any power-of-two sizeof(wchar_t).", "quantifier": "all sizes", "why_tests_cant": "all sizes of wchar_t and of the data", "anchors": ["src/c4/char_traits.hpp:num_needed_chars"]}
{"id": "C105", "title": "Number of whitespace characters", "statement": "char_traits<C>::num_whitespace_chars is the number of characters of whitespace_chars, for char and wchar_t, and these are exactly the characters for which isspace holds in the C locale.", "quantifier": "all character types and characters", "why_tests_cant": "all characters and sizes of wchar_t", "anchors": ["src/c4/char_traits.hpp:char_traits"]}
{"id": "C106", "title": "Functions on n objects act on each object", "statement": "construct_n, copy_construct_n, copy_assign_n, move_construct_n, move_assign_n and destroy_n act on each of the n objects and on nothing else, with the same result for trivial types (which use memcpy) and others, for all arguments their assertions admit.", "quantifier": "all contents, sizes and positions", "why_tests_cant": "all sizes and positions; object lifetimes are invisible to tests", "anchors": ["src/c4/ctor_dtor.hpp:construct_n", "src/c4/ctor_dtor.hpp:copy_construct_n", "src/c4/ctor_dtor.hpp:copy_assign_n", "src/c4/ctor_dtor.hpp:move_construct_n", "src/c4/ctor_dtor.hpp:move_assign_n", "src/c4/ctor_dtor.hpp:destroy_n"]}
{"id": "C107", "title": "make_room destroys what it replaces", "statement": "make_room never constructs an object in the memory of another one that was not destroyed.", "quantifier": "all sizes and gaps", "why_tests_cant": "object lifetimes are invisible to tests", "anchors": ["src/c4/ctor_dtor.hpp:make_room"]}
{"id": "C108", "title": "Exact 64-bit word arithmetic", "statement": "leading_zeroes gives the number of zero bits above the highest set bit of a non-zero 64-bit word, and the portable 64x64-bit multiplication gives all 128 bits of the product.", "quantifier": "all 64-bit words and pairs of words", "why_tests_cant": "2^64 words and 2^128 pairs", "anchors": ["src/c4/ext/fast_float_all.h:leading_zeroes_generic", "src/c4/ext/fast_float_all.h:umul128_generic", "src/c4/ext/fast_float_all.h:full_multiplication"]}
{"id": "C109", "title": "The table of powers of five", "statement": "For every power of ten from -342 to 308 the table holds the leading 128 bits of it, with an error below one unit in the last place, and detail::power gives the position of its leading bit.", "quantifier": "all 651 rows", "why_tests_cant": "compares 128-bit rows with exact powers of up to 800 bits", "anchors": ["src/c4/ext/fast_float_all.h:power_of_five_128", "src/c4/ext/fast_float_all.h:power"]}
{"id": "C110", "title": "Eisel-Lemire conversion is always correctly rounded", "statement": "For every 64-bit w and every q, compute_float gives the float or double nearest to w*10^q, ties to even, including subnormal numbers, zero and infinity, although it computes with a truncated power of ten and never falls back to more precision.", "quantifier": "all 64-bit w, all q, float and double, both signs", "why_tests_cant": "2^64 significands for each of 651 powers; the hard cases are rare", "anchors": ["src/c4/ext/fast_float_all.h:compute_float", "src/c4/ext/fast_float_all.h:compute_product_approximation", "src/c4/ext/fast_float_all.h:to_float"]}
{"id": "C111", "title": "Eight digits at a time", "statement": "The tests and conversions of eight characters in one 64-bit word decide whether all of them are digits, and give the number they write; skipping zeros eight at a time gives the same as one at a time.", "quantifier": "all eight-byte words, all digit texts", "why_tests_cant": "2^64 words", "anchors": ["src/c4/ext/fast_float_all.h:is_made_of_eight_digits_fast", "src/c4/ext/fast_float_all.h:parse_eight_digits_unrolled", "src/c4/ext/fast_float_all.h:skip_zeros", "src/c4/ext/fast_float_all.h:is_truncated"]}
{"id": "C112", "title": "Big number arithmetic is exact", "statement": "The big numbers of fast_float hold exactly the sum, product with a 64-bit number, with a power of five, two or ten, and the digits of a text, as long as the result has at most 62 limbs; they are compared by value, and their bit length and highest 64 bits are exact.", "quantifier": "all numbers and operands", "why_tests_cant": "carries over many limbs are rare", "anchors": ["src/c4/ext/fast_float_all.h:small_mul", "src/c4/ext/fast_float_all.h:small_add_from", "src/c4/ext/fast_float_all.h:large_add_from", "src/c4/ext/fast_float_all.h:long_mul", "src/c4/ext/fast_float_all.h:bigint", "src/c4/ext/fast_float_all.h:parse_mantissa"]}
{"id": "C113", "title": "Text of a decimal floating point number", "statement": "fast_float::from_chars reads the longest prefix of the text that is a decimal number (optional minus, digits with an optional point, optional exponent with at least one digit), for every text that begins with one: the returned pointer is behind it, and the sign of the result is the one that is written.", "quantifier": "all texts, float and double", "why_tests_cant": "all texts, with any number of digits", "anchors": ["src/c4/ext/fast_float_all.h:from_chars_advanced", "src/c4/ext/fast_float_all.h:parse_number_string"]}
{"id": "C114", "title": "Decimal numbers are correctly rounded", "statement": "For every text that begins with a decimal number, fast_float::from_chars gives the float or double nearest to the number that is written, ties to even, with any number of digits and any exponent, whatever the rounding direction of the thread is.", "quantifier": "all texts, float and double, all rounding directions", "why_tests_cant": "hard cases lie within 10^-700 of a tie and need hundreds of digits", "anchors": ["src/c4/ext/fast_float_all.h:from_chars_advanced", "src/c4/ext/fast_float_all.h:digit_comp", "src/c4/ext/fast_float_all.h:compute_error", "src/c4/ext/fast_float_all.h:parse_number_string"]}
{"id": "C115", "title": "Infinities and NaNs", "statement": "fast_float::from_chars accepts, besides numbers, exactly inf, infinity, nan and nan(chars) with letters in any case after an optional minus, reads the longest of them, and leaves the value alone for any other text.", "quantifier": "all texts", "why_tests_cant": "all texts", "anchors": ["src/c4/ext/fast_float_all.h:parse_infnan", "src/c4/ext/fast_float_all.h:fastfloat_strncasecmp"]}
{"id": "C116", "title": "atof and atod convert real numbers", "statement": "atof and atod return true if and only if the whole text is a real number (as decided by is_real) that is in range, and then assign the nearest float or double.", "quantifier": "all texts", "why_tests_cant": "all texts", "anchors": ["src/c4/charconv.hpp:atof", "src/c4/charconv.hpp:atod"]}
{"id": "C117", "title": "First real number of a text", "statement": "atof_first and atod_first return the position after the first real number of the text (as found by first_real_span) and assign the nearest float or double, or return npos if there is none or it is out of range.", "quantifier": "all texts", "why_tests_cant": "all texts", "anchors": ["src/c4/charconv.hpp:atof_first", "src/c4/charconv.hpp:atod_first"]}
{"id": "C118", "title": "Results out of range are reported", "statement": "fast_float::from_chars reports result_out_of_range if and only if the result is infinite, or zero for a number that is not zero; it assigns the result nevertheless.", "quantifier": "all texts that begin with a number", "why_tests_cant": "all texts", "anchors": ["src/c4/ext/fast_float_all.h:from_chars_advanced"]}
{"id": "C119", "title": "Any rounding direction gives the same result", "statement": "rounds_to_nearest() holds exactly if the rounding direction of the thread is to nearest, and from_chars gives the same result for every rounding direction and every text.", "quantifier": "all texts and rounding directions", "why_tests_cant": "all texts in four rounding directions", "anchors": ["src/c4/ext/fast_float_all.h:rounds_to_nearest", "src/c4/ext/fast_float_all.h:from_chars_advanced"]}
{"id": "C120", "title": "Bounds of the exact fast path", "statement": "The bound of the fast path for directed rounding and the power of ten p is, as documented, the largest integer v with v*5^p at most 2^53 (double) or 2^24 (float).", "quantifier": "all powers and integers", "why_tests_cant": "a bound that is too small only costs time", "anchors": ["src/c4/ext/fast_float_all.h:max_mantissa"]}
{"id": "C121", "title": "Writing a real number", "statement": "ftoa and dtoa never write outside the buffer, whatever its size. They return the number of characters that the text of the number needs; if this is at most the size of the buffer, the text is at its start and the rest of the buffer is unchanged.", "quantifier": "all numbers, precisions, formats and buffers, with std::to_chars and with snprintf", "why_tests_cant": "the buffers in the tests are much larger than the texts", "anchors": ["src/c4/charconv.hpp:rtoa", "src/c4/charconv.hpp:print_one", "src/c4/charconv.hpp:ftoa", "src/c4/charconv.hpp:dtoa"]}
{"id": "C122", "title": "Concatenating and formatting real numbers", "statement": "cat, catsep and format with real numbers among the arguments give the texts of the arguments in sequence; catrs, catseprs, formatrs and their appending variants give containers with exactly this contents, whatever size the container had.", "quantifier": "all argument lists, formats and initial containers", "why_tests_cant": "needed sizes are estimates for real numbers, and one argument's estimate moves all later ones", "anchors": ["src/c4/format.hpp:cat", "src/c4/format.hpp:catsep", "src/c4/format.hpp:format", "src/c4/format.hpp:catrs"]}
{"id": "C123", "title": "Aligned real numbers", "statement": "fmt::left, fmt::center and fmt::right of a real number give its text with padding up to the width, as for any other argument.", "quantifier": "all numbers, formats, widths, padding characters and buffers", "why_tests_cant": "the tests align integers and strings only", "anchors": ["src/c4/format.hpp:to_chars(left_)", "src/c4/format.hpp:to_chars(right_)", "src/c4/charconv.hpp:dtoa"]}
{"id": "C124", "title": "Real numbers survive being written and read", "statement": "A number written with dtoa (ftoa) into a sufficient buffer and read with atod (atof) is the same number, bit for bit; infinities stay what they are and NaN stays NaN with its sign.", "quantifier": "all numbers and formats", "why_tests_cant": "there are 2^64 doubles, and rounding fails only on few of them", "anchors": ["src/c4/charconv.hpp:dtoa", "src/c4/charconv.hpp:atod", "src/c4/charconv.hpp:ftoa", "src/c4/charconv.hpp:atof"]}
{"id": "C125", "title": "Reporting errors and warnings", "statement": "When an error is reported, control does not return to the place of the error. According to the flags, the message is logged once with its place, then the callback is called once with the message (at most 1023 characters, terminated) and its size, then an exception with the message is thrown; otherwise the program is aborted. A warning is logged and control returns.", "quantifier": "all messages, flags, callbacks and places", "why_tests_cant": "tests cannot observe the abort, and use the default flags with short messages", "anchors": ["src/c4/error.cpp:handle_error", "src/c4/error.cpp:handle_warning"]}
{"id": "C126", "title": "Error settings for a scope", "statement": "From the construction of a ScopedErrorSettings its flags or callback are in force, and when it is gone the settings are again those before it, whatever happened in between; when all such objects are gone, the settings are those before the first.", "quantifier": "all sequences of statements and lifetimes of objects", "why_tests_cant": "tests nest two scopes at most", "anchors": ["src/c4/error.hpp:ScopedErrorSettings"]}
{"id": "C127", "title": "Looking for a debugger", "statement": "is_debugger_attached tells whether a debugger is attached at the time of the call, without undefined behavior for any contents of the process status.", "quantifier": "all contents of the status file and all sequences of calls", "why_tests_cant": "the tests run without a debugger", "anchors": ["src/c4/error.cpp:is_debugger_attached"]}
{"id": "C128", "title": "Names of types", "statement": "type_name gives the name of the type, without anything else, with every supported compiler.", "quantifier": "all names and compilers", "why_tests_cant": "each build tests one compiler and six names", "anchors": ["src/c4/type_name.hpp:type_name"]}
{"id": "C129", "title": "Comparing string views with standard containers", "statement": "The six comparisons of a csubstr with a std::string, a std::vector<char> or a std::string_view, in both orders of the arguments, are those of the lexicographic order of the characters, also for empty containers and null views; the order is that of the standard containers.", "quantifier": "all strings, comparisons and orders of the arguments", "why_tests_cant": "36 operators, tested on a few ASCII strings", "anchors": ["src/c4/std/string.hpp", "src/c4/std/vector.hpp", "src/c4/std/string_view.hpp"]}
{"id": "C130", "title": "Variables as base64 text", "statement": "An array or variable of trivially copyable type written with fmt::base64 and read into another of the same type has the same bytes there; no other memory changes, and the size returned is that of the variable.", "quantifier": "all element sizes and counts, all positions in memory", "why_tests_cant": "sizes that are not multiples of three hit different branches", "anchors": ["src/c4/blob.hpp", "src/c4/base64.hpp:to_chars", "src/c4/base64.hpp:from_chars"]}
{"id": "C131", "title": "Reading real numbers with sscanf", "statement": "Built without fast_float and std::from_chars, atof/atod convert the characters of the view only, whatever follows it in memory, and read nothing beyond it; text that is not a number is refused and nothing is assigned; the same for the first number of a view, read with atof_first/atod_first.", "quantifier": "all views, all contents of the memory around them", "why_tests_cant": "views used in tests are mostly whole zero terminated strings", "anchors": ["src/c4/charconv.hpp:detail::scan_one", "src/c4/charconv.hpp:atof", "src/c4/charconv.hpp:atod"]}
{"id": "C132", "title": "Views of C strings and literals", "statement": "A csubstr or substr made of a C string views the characters before its zero, and the null pointer gives an empty view; made of a character array holding a C string it views that string. The six comparisons of a view with a literal or a single character, on either side, are those of the lexicographic order; empty, not_empty and has_str tell whether there are characters.", "quantifier": "all strings, arrays, comparisons and orders of the arguments", "why_tests_cant": "arrays larger than their string and views longer than INT_MAX are not tried", "anchors": ["src/c4/substr.hpp:basic_substring", "src/c4/substr.hpp:to_substr", "src/c4/substr.hpp:to_csubstr", "src/c4/substr.hpp:operator==", "src/c4/substr.hpp:operator<"]}
{"id": "C133", "title": "Integers, pointers and null with a radix or padding", "statement": "fmt::integral, hex, oct, bin and zpad write integers in the radix named, with its prefix and at least the requested digits; pointers are written as the unsigned value of the address, null as zero; reading the text of a pointer gives it back.", "quantifier": "all integer types, values, radices, addresses and widths", "why_tests_cant": "addresses in the upper half of memory do not occur in tests", "anchors": ["src/c4/format.hpp:fmt::integral", "src/c4/format.hpp:fmt::hex", "src/c4/format.hpp:fmt::oct", "src/c4/format.hpp:fmt::bin", "src/c4/format.hpp:fmt::zpad"]}
{"id": "C134", "title": "Aligned allocation", "statement": "aalloc(size, alignment) reports alignments that are not powers of two; otherwise it returns an address that is a multiple of the alignment (also below the size of a pointer) or reports the lack of memory; the system is only asked for alignments it accepts. Through a memory resource requests of any size get memory or report that there is none.", "quantifier": "all sizes, alignments and answers of the system", "why_tests_cant": "failing allocations and odd alignments are not tried", "anchors": ["src/c4/memory_resource.cpp:aalloc_impl", "src/c4/memory_resource.hpp:MemoryResource::allocate"]}
{"id": "C135", "title": "Stacked memory resources", "statement": "Of memory resources that get their memory from one another, each counting one counts exactly the blocks asked of it or of resources on top of it; the system is asked once for every block, for the same size and at least the alignment, and what was obtained and not freed is the memory of the live blocks.", "quantifier": "all stacks and trees of resources, all histories of calls to any of them, also failing allocations", "why_tests_cant": "unbounded stacks and histories", "anchors": ["src/c4/memory_resource.hpp:DerivedMemoryResource", "src/c4/memory_resource.hpp:MemoryResourceCounts", "src/c4/memory_resource.hpp:MemoryResourceMalloc", "src/c4/memory_resource.cpp:arealloc_impl"]}
{"id": "C136", "title": "Equal allocators release each other's memory", "statement": "If two Allocators compare equal, memory allocated with one and deallocated with the other goes back to the resource it came from, whatever happens to the global memory resource; copies and rebound allocators are equal to the original; select_on_container_copy_construct gives a default constructed allocator.", "quantifier": "all histories of allocations, releases and changes of the global resource", "why_tests_cant": "needs changes of the global resource while blocks are live", "anchors": ["src/c4/allocator.hpp:Allocator", "src/c4/allocator.hpp:MemRes", "src/c4/allocator.hpp:MemResGlobal"]}
{"id": "C137", "title": "Arithmetic of allocation counts", "statement": "The difference of the counts after and before some calls are the counts of these calls; the sum of the counts of two resources are those of all their calls.", "quantifier": "all histories", "why_tests_cant": "the maximum depends on the interleaving", "anchors": ["src/c4/memory_resource.hpp:AllocationCounts::operator-", "src/c4/memory_resource.hpp:AllocationCounts::operator+", "src/c4/memory_resource.hpp:AllocationCounts::update"]}
{"id": "C138", "title": "Sizes of spans for any index type", "statement": "byte_size() of a span is its number of elements times the size of one, and a span assigned an array has the number of elements of the array, for every index type.", "quantifier": "all signed and unsigned index types, all sizes", "why_tests_cant": "tests use the default index type, for which no size is too large", "anchors": ["src/c4/span.hpp:byte_size", "src/c4/span.hpp:assign"]}
{"id": "C139", "title": "Element access and identity of spans for any index type", "statement": "front(), back() and operator[] of a span give the first, the last and the i-th of its elements, for every index type, and accesses outside of it are reported when assertions are enabled. same_span with a span of another index type is true exactly if address and size are equal, and a size that the index type does not have is reported.", "quantifier": "all pairs of index types, all spans and indices", "why_tests_cant": "combinations of narrow, wide, signed and unsigned index types are not tried", "anchors": ["src/c4/span.hpp:front", "src/c4/span.hpp:back", "src/c4/span.hpp:operator[]", "src/c4/span.hpp:same_span"]}
{"id": "C140", "title": "tight_pair is a pair", "statement": "A tight_pair holds the two values it was constructed with, an assignment to one leaves the other unchanged, and default construction initializes both, whichever of the two types are empty classes and whether or not they are the same type. Empty classes are not members of it, so that they take no space.", "quantifier": "all combinations of empty, non-empty and equal types, all values", "why_tests_cant": "an uninitialized member often happens to be zero", "anchors": ["src/c4/memory_util.hpp:detail::tight_pair", "src/c4/memory_util.hpp:detail::tpc_which_case"]}
{"id": "C141", "title": "Reading a list of numbers from any text", "statement": "For every text and every list of integral arguments, uncat and uncatsep either return npos or the number of characters read, which is never more than there are. In this case these characters are number texts of the values stored, in the order of the arguments, for uncatsep with one character in between; unsigned arguments are never read from a text with a minus sign. Whenever the text begins with such numbers, they are read. unformat returns npos unless the text is one of the format, and never counts more characters than there are.", "quantifier": "all texts, formats and lists of argument types", "why_tests_cant": "tests read texts that were written by cat, catsep and format", "anchors": ["src/c4/format.hpp:uncat", "src/c4/format.hpp:uncatsep", "src/c4/format.hpp:unformat"]}
{"id": "C142", "title": "is_aligned is exact", "statement": "is_aligned(ptr, alignment) is true exactly if the address is a multiple of the alignment, for every power of two.", "quantifier": "all addresses and alignments", "why_tests_cant": "addresses are unbounded", "anchors": ["src/c4/memory_util.hpp:is_aligned"]}
{"id": "C143", "title": "Seeding, discarding and comparing random generators", "statement": "After seed(s) the numbers of a generator depend only on s and are those of a generator constructed with s. discard(n) skips exactly n numbers. Seeding from a random device can give every 64-bit state. Equal generators give equal numbers.", "quantifier": "all states, seeds, histories and counts", "why_tests_cant": "all states and histories; tests only draw a few numbers", "anchors": ["src/c4/ext/rng/rng.hpp:splitmix", "src/c4/ext/rng/rng.hpp:xorshift", "src/c4/ext/rng/rng.hpp:pcg"]}
{"id": "C144", "title": "Integers in any base (fast_float)", "statement": "For every text, base from 2 to 36 and integral type, fast_float's from_chars accepts exactly the texts that begin with a number in the base, a minus sign being allowed for signed types, and stops after its last digit. It stores the value if the type has it, and otherwise reports that it is out of range and stores nothing. Other texts and bases are reported as invalid.", "quantifier": "all texts, bases and integral types", "why_tests_cant": "all texts of any length in 35 bases", "anchors": ["src/c4/ext/fast_float_all.h:parse_int_string", "src/c4/ext/fast_float_all.h:from_chars"]}
{"id": "C145", "title": "Conversions chosen by the type", "statement": "For every integral type, value of it, radix and number of digits, xtoa and to_chars write the text of the value, with its sign and the prefix of the radix, into a buffer that has room for it, and atox and from_chars read the value back. Every address survives being written by xtoa and read by atox.", "quantifier": "all integral types, values, radices, numbers of digits and addresses", "why_tests_cant": "all values of all types", "anchors": ["src/c4/charconv.hpp:xtoa", "src/c4/charconv.hpp:atox"]}
{"id": "C146", "title": "Formats and decimal points of fast_float", "statement": "With every chars_format and every decimal point that is no digit, letter or sign, from_chars_advanced reads the longest prefix of the text that is a number in the format, as from_chars reads the same number written with '.' and e. In the scientific format the exponent is required, in the fixed format there is none, in the Fortran format it may be written with d or with a sign only, and in the JSON formats the text is refused unless this prefix is a number of RFC 8259. Other texts are refused, except the words for NaN and infinity if the format allows them.", "quantifier": "all texts, formats, decimal points and rounding directions", "why_tests_cant": "all texts and options", "anchors": ["src/c4/ext/fast_float_all.h:from_chars_advanced", "src/c4/ext/fast_float_all.h:parse_number_string"]}
{"id": "C147", "title": "Floating point numbers in texts of wide characters", "statement": "Whatever the character type (char, wchar_t, char16_t, char32_t), the SIMD instructions in use and the byte order of the machine, fast_float reads a floating point number as it does from the text of char that has the same characters, with any characters that cannot be a part of a number in the places of those that cannot: value, error and position are the same.", "quantifier": "all texts of code units, character types, SIMD instructions, byte orders, formats, decimal points and rounding directions", "why_tests_cant": "all texts of 16-bit or 32-bit units", "anchors": ["src/c4/ext/fast_float_all.h:from_chars_advanced", "src/c4/ext/fast_float_all.h:loop_parse_if_eight_digits", "src/c4/ext/fast_float_all.h:simd_parse_if_eight_digits_unrolled", "src/c4/ext/fast_float_all.h:read8_to_u64", "src/c4/ext/fast_float_all.h:parse_infnan"]}
{"id": "C148", "title": "Integers in texts of wide characters", "statement": "Whatever the character type, the SIMD instructions in use and the byte order of the machine, fast_float reads an integer in any base as it does from the text of char that has the same characters, with any characters that cannot be a part of a number in the places of those that cannot: value, error and position are the same.", "quantifier": "all texts of code units, character types, SIMD instructions, byte orders, integral types and bases", "why_tests_cant": "all texts of 16-bit or 32-bit units", "anchors": ["src/c4/ext/fast_float_all.h:parse_int_string", "src/c4/ext/fast_float_all.h:ch_to_digit"]}
{"id": "C149", "title": "Big numbers keep within their memory and report what does not fit", "statement": "Whatever big number of fast_float (one that is within its memory of 4000 bits, in whole limbs), multiplying it by a limb, a big number, a power of five, two or ten, and adding a limb, never writes beyond the memory; the operation returns true exactly if the exact result fits, and then the number has that value; only zero is refused too, by a multiplication with 2^n or 10^n for n from 4032 on.", "quantifier": "all big numbers, limbs and exponents", "why_tests_cant": "numbers of thousands of bits, at the limit of the memory", "anchors": ["src/c4/ext/fast_float_all.h:small_mul", "src/c4/ext/fast_float_all.h:small_add_from", "src/c4/ext/fast_float_all.h:large_mul", "src/c4/ext/fast_float_all.h:stackvec", "src/c4/ext/fast_float_all.h:bigint"]}
{"id": "C150", "title": "Exceptions while n objects are constructed leave no object behind", "statement": "If a constructor throws while construct_n, copy_construct_n, fill_construct_n, move_construct_n or make_room work on n elements, the objects constructed before are destroyed and the exception reaches the caller.", "quantifier": "all numbers of elements, and all places at which a constructor throws", "why_tests_cant": "exceptions are not thrown in the tests; the number of elements is unbounded", "anchors": ["src/c4/ctor_dtor.hpp:construct_n", "src/c4/ctor_dtor.hpp:copy_construct_n", "src/c4/ctor_dtor.hpp:make_room"]}
{"id": "C151", "title": "The functions on one object construct, copy, move and destroy that object", "statement": "construct, copy_construct, copy_assign, move_construct, move_assign and destroy of one object do to it what the functions on n objects do for n = 1, and nothing to others; scalars are passed by value, so that filling a range with one of its own elements works.", "quantifier": "all objects, places and memories", "why_tests_cant": "all places and all contents of the memory", "anchors": ["src/c4/ctor_dtor.hpp:construct", "src/c4/ctor_dtor.hpp:copy_construct", "src/c4/ctor_dtor.hpp:copy_assign", "src/c4/ctor_dtor.hpp:move_construct", "src/c4/ctor_dtor.hpp:destroy"]}
{"id": "C152", "title": "Room can be made anywhere in a copy of an array", "statement": "make_room with the sizes of both arrays accepts all places from the first to after the last element, if the elements and the room fit in the destination; the elements before and after the place are then copied around the room.", "quantifier": "all arrays, sizes, places and rooms", "why_tests_cant": "all combinations of sizes and places", "anchors": ["src/c4/ctor_dtor.hpp:make_room"]}
{"id": "C153", "title": "Constructing n objects without arguments value-initializes them", "statement": "construct_n(ptr, n) of a trivial type leaves n value-initialized objects.", "quantifier": "all trivial types made of scalars, all n", "why_tests_cant": "all types", "anchors": ["src/c4/ctor_dtor.hpp:construct_n"]}
{"id": "C154", "title": "Allocators construct objects as the standard's polymorphic allocator does", "statement": "construct and construct_n of an allocator pass the arguments to the constructor of types that do not use allocators; to the others they pass the memory resource too, as first argument after std::allocator_arg if the type can be constructed so, and otherwise as last one.", "quantifier": "all types, arguments and resources", "why_tests_cant": "all types", "anchors": ["src/c4/allocator.hpp:_AllocatorUtil::construct", "src/c4/allocator.hpp:has_alloc_arg", "src/c4/allocator.hpp:has_alloc"]}
{"id": "C155", "title": "The assertions of spans accept exactly the arguments in range", "statement": "With assertions on, operator[], subspan, range, first, last, resize, rtrim and ltrim of spans of any index type accept their arguments exactly if they are in range: a selection lies in the span, a new size is not negative and within the capacity, and not more elements are trimmed than there are.", "quantifier": "all index types, sizes, capacities and arguments", "why_tests_cant": "the tests run few calls, with unsigned indices", "anchors": ["src/c4/span.hpp:span_crtp::subspan", "src/c4/span.hpp:span_crtp::range", "src/c4/span.hpp:span::rtrim", "src/c4/span.hpp:span::resize"]}
{"id": "C156", "title": "Conversions between the classes of spans lose nothing but the capacity and the origin", "statement": "A spanrs or spanrsl converted to span, or a spanrsl converted to spanrs, shows the same elements, and any call on it gives the conversion of what the call gives on the original; spans constructed or assigned from a pointer and sizes keep to this memory, and original() is the whole of it.", "quantifier": "all spans, index widths, calls and arguments", "why_tests_cant": "all calls with all arguments", "anchors": ["src/c4/span.hpp:spanrsl::operator spanrs", "src/c4/span.hpp:spanrs::operator span", "src/c4/span.hpp:spanrsl::assign"]}
{"id": "C157", "title": "Floating point numbers are read alike on 32-bit platforms", "statement": "Where fast_float works with limbs of 32 bits, from_chars gives, for every text, the same rest of the text, error and bits as where it works with limbs of 64 bits, whatever the rounding directions are.", "quantifier": "all texts of bytes, float and double, all rounding directions", "why_tests_cant": "the code for 32-bit limbs is compiled only on such platforms, and reached only by long or difficult texts", "anchors": ["src/c4/ext/fast_float_all.h:from_chars_advanced", "src/c4/ext/fast_float_all.h:parse_mantissa", "src/c4/ext/fast_float_all.h:bigint", "src/c4/ext/fast_float_all.h:uint64_hi64"]}
{"id": "C158", "title": "Big number arithmetic is exact with limbs of 32 bits", "statement": "With limbs of 32 bits, the big numbers of fast_float hold exactly the sum, the product with a limb, a big number, a power of five, two or ten, and the digits of a text, and report a result exactly if it does not fit in 4000 bits (and zero times 2^n or 10^n for n from 4032 on), without writing beyond the memory; they are compared by value, and their bit length and highest 64 bits are exact.", "quantifier": "all numbers and operands", "why_tests_cant": "carries over many limbs are rare, and the code is compiled only on 32-bit platforms", "anchors": ["src/c4/ext/fast_float_all.h:small_mul", "src/c4/ext/fast_float_all.h:small_add_from", "src/c4/ext/fast_float_all.h:large_add_from", "src/c4/ext/fast_float_all.h:long_mul", "src/c4/ext/fast_float_all.h:bigint", "src/c4/ext/fast_float_all.h:uint32_hi64"]}
{"id": "C159", "title": "The assertions of the functions of views refuse exactly the calls that leave the view", "statement": "In builds with assertions, sub, range, first, last, left_of, right_of, offs, reverse_sub, reverse_range and erase of a view accept exactly the calls whose positions lie in the view and are in order, and a call that is accepted selects exactly the elements that its positions name.", "quantifier": "all views, and all positions and lengths including npos", "why_tests_cant": "the accepted calls are given by conditions on sums of unsigned numbers, which are wrong only at the ends of the ranges", "anchors": ["src/c4/substr.hpp:sub", "src/c4/substr.hpp:range", "src/c4/substr.hpp:offs", "src/c4/substr.hpp:right_of", "src/c4/substr.hpp:erase", "src/c4/substr.hpp:reverse_sub"]}
{"id": "C160", "title": "Readers of numbers fail no assertion", "statement": "In builds with assertions, atoi, atou, atof, atod, their _first forms, overflows and the readers of digits accept every text, and give the result of a build without assertions.", "quantifier": "all texts, all integer types, float and double", "why_tests_cant": "assertions are conditions on texts that nobody thought of", "anchors": ["src/c4/charconv.hpp:atoi", "src/c4/charconv.hpp:atou", "src/c4/charconv.hpp:atof", "src/c4/charconv.hpp:scan_rhex", "src/c4/charconv.hpp:overflows", "src/c4/charconv.hpp:read_dec"]}
{"id": "C161", "title": "The search for the first number in a text fails no assertion", "statement": "In builds with assertions, first_non_empty_span, first_uint_span, first_int_span and first_real_span fail no assertion, whatever the text is, and return the range of the number that the text begins with after blanks.", "quantifier": "all texts", "why_tests_cant": "the searches advance an index in nested loops, and ask for subranges at every exit", "anchors": ["src/c4/substr.hpp:first_non_empty_span", "src/c4/substr.hpp:first_uint_span", "src/c4/substr.hpp:first_int_span", "src/c4/substr.hpp:first_real_span"]}
{"id": "C162", "title": "Writers of integers fail no assertion", "statement": "In builds with assertions, the writers of integers accept every value from 0 on (itoa: every value), every number of digits to pad to and every buffer, and give the result of a build without assertions; they refuse a radix other than 2, 8, 10 and 16, and negative values where there is no sign. The writers that are given the number of digits accept exactly the number of digits of the value.", "quantifier": "all values of all integer types, all radices, numbers of digits and buffers", "why_tests_cant": "the assertions in and after the loops compare the number of digits left with the number that other code counted", "anchors": ["src/c4/charconv.hpp:write_dec", "src/c4/charconv.hpp:write_dec_unchecked", "src/c4/charconv.hpp:write_hex_unchecked", "src/c4/charconv.hpp:write_num_digits", "src/c4/charconv.hpp:itoa", "src/c4/charconv.hpp:utoa", "src/c4/charconv.hpp:detail::_itoa2buf"]}
{"id": "C163", "title": "The base64 assertions fail exactly for texts that are not base64", "statement": "In builds with assertions, base64_encode accepts all bytes and buffers, and base64_decode fails an assertion exactly when the text is not a well formed base64 encoding.", "quantifier": "all byte sequences, texts and buffers", "why_tests_cant": "the assertions about padding look at two characters of the last group of four, and texts that mix padding and letters are countless", "anchors": ["src/c4/base64.cpp:base64_encode", "src/c4/base64.cpp:base64_decode"]}
{"id": "C164", "title": "The code point assertions fail exactly for texts that are not code points", "statement": "In builds with assertions, decode_code_point accepts exactly the texts of one to eight hexadecimal digits, with room for four bytes, and then does what it does without assertions.", "quantifier": "all texts, numbers and buffers", "why_tests_cant": "the assertions look at prefixes and lengths of the text, and tests only give the usual spellings", "anchors": ["src/c4/utf.cpp:decode_code_point"]}
{"id": "C165", "title": "Searching, trimming, splitting, popping and replacing fail no assertion", "statement": "In builds with assertions, finding, counting, selecting, trimming, stripping, delimited ranges, splitting, popping, path parts and replacing accept every text and every start within it, and give the result of a build without assertions.", "quantifier": "all texts, characters, patterns and start positions", "why_tests_cant": "each function hands positions that it computed to functions that assert them; the positions at the ends of the text are the ones that fail", "anchors": ["src/c4/substr.hpp:find", "src/c4/substr.hpp:count", "src/c4/substr.hpp:select", "src/c4/substr.hpp:first_of_any", "src/c4/substr.hpp:trim", "src/c4/substr.hpp:stripl", "src/c4/substr.hpp:pair_range", "src/c4/substr.hpp:pair_range_esc", "src/c4/substr.hpp:pair_range_nested", "src/c4/substr.hpp:unquoted", "src/c4/substr.hpp:split", "src/c4/substr.hpp:pop_left", "src/c4/substr.hpp:pop_right", "src/c4/substr.hpp:gpop_left", "src/c4/substr.hpp:gpop_right", "src/c4/substr.hpp:basename", "src/c4/substr.hpp:dirname", "src/c4/substr.hpp:replace", "src/c4/substr.hpp:replace_all"]}
{"id": "C166", "title": "Bitmasks and enum names with assertions", "statement": "In builds with assertions, with class and prefix offsets shorter than all names, reading a bitmask has a defined result for every text, and, like writing one and searching a name, gives the result of a build without assertions.", "quantifier": "all tables, texts, values and buffers", "why_tests_cant": "the assertions depend on which characters each item of the list has, and the reading goes on with the state of the item before", "anchors": ["src/c4/bitmask.hpp:str2bm", "src/c4/bitmask.hpp:bm2str", "src/c4/enum.hpp:cmp", "src/c4/enum.hpp:name_offs"]}
{"id": "C167", "title": "Linear memory resource and small allocator with assertions", "statement": "In builds with assertions, after any history of calls on live blocks, the linear resource and the small allocator allocate, reallocate, release and report what is left as in a build without assertions, for alignments that are no less than that of the type.", "quantifier": "all histories of calls, sizes and alignments", "why_tests_cant": "the counters that are asserted depend on the whole history of calls", "anchors": ["src/c4/memory_resource.cpp:do_allocate", "src/c4/memory_resource.cpp:do_reallocate", "src/c4/memory_resource.hpp:slack", "src/c4/allocator.hpp:allocate", "src/c4/allocator.hpp:deallocate", "src/c4/allocator.hpp:reallocate"]}
{"id": "C168", "title": "Replaceable allocation functions", "statement": "aalloc, afree and arealloc work on the functions set last with set_aalloc, set_afree and set_arealloc: after any history, every block can be read, reallocated keeping its contents, and freed, and goes back, once, to the heap that handed it out. The default arealloc works with any aalloc and afree. Calls through null functions are reported.", "quantifier": "all histories of setting functions, allocating, storing, reallocating and freeing, all heaps, sizes and contents", "why_tests_cant": "needs heaps that check what they are given, and every order of setting functions and of calls", "anchors": ["src/c4/memory_resource.cpp:aalloc", "src/c4/memory_resource.cpp:afree", "src/c4/memory_resource.cpp:arealloc", "src/c4/memory_resource.cpp:arealloc_impl", "src/c4/memory_resource.cpp:set_aalloc", "src/c4/memory_resource.cpp:set_afree", "src/c4/memory_resource.cpp:set_arealloc", "src/c4/memory_resource.hpp:MemoryResourceMalloc"]}
{"id": "C169", "title": "What failed checks report", "statement": "A check that holds does nothing. One that fails reports 'check failed: ' and the condition as it is spelled and, for the variants with a message, the message with its arguments on the next line; before that there is a breakpoint exactly if the flag for this is set, breakpoints are compiled in and a debugger is attached. Assertions are checks if they are enabled and do nothing otherwise.", "quantifier": "all conditions, messages, arguments, flags and callbacks", "why_tests_cant": "tests count failed checks and do not look at the text; conditions with % do not occur in them", "anchors": ["src/c4/error.hpp:C4_CHECK", "src/c4/error.hpp:C4_CHECK_MSG", "src/c4/error.hpp:C4_ERROR", "src/c4/error.hpp:C4_ASSERT"]}
{"id": "C170", "title": "Messages of the library's own checks", "statement": "The messages of failing allocations, reallocations, size conversions, searches for enum symbols, and of reading and writing bitmasks show the values they speak of: sizes, alignments, names, characters.", "quantifier": "all values", "why_tests_cant": "the messages are not compared in tests, and some need a system without memory", "anchors": ["src/c4/memory_resource.hpp:allocate", "src/c4/memory_resource.cpp:aalloc_impl", "src/c4/szconv.hpp:szconv", "src/c4/enum.hpp:get", "src/c4/bitmask.hpp:str2bm_read_one"]}
{"id": "C171", "title": "Converting text between views of the same memory", "statement": "Writing a view to a buffer, reading a view into a writable view and reading the first word of a view into a writable view copy the text, cut at the end of the destination, and change nothing else in the memory, if source and destination have no character in common; with assertions these conversions stop exactly if they have one in common.", "quantifier": "all memories and all pairs of views of them", "why_tests_cant": "tests convert between separate buffers", "anchors": ["src/c4/charconv.hpp:to_chars", "src/c4/charconv.hpp:from_chars", "src/c4/charconv.hpp:from_chars_first", "src/c4/substr.hpp:overlaps"]}
{"id": "C172", "title": "Reading a view of a container into the container", "statement": "from_chars of a view of a std::string or std::vector<char> to that same container is either stopped by an assertion or gives the container the text of the view.", "quantifier": "all containers, capacities and views of them", "why_tests_cant": "tests read into containers from other texts", "anchors": ["src/c4/std/string.hpp:from_chars", "src/c4/std/vector.hpp:from_chars"]}
{"id": "C173", "title": "Appending views of a container to it", "statement": "catrs_append of texts among which are views of the container itself appends the texts as they were before the call, and returns the part appended.", "quantifier": "all containers, capacities, policies of growth and sequences of arguments", "why_tests_cant": "tests append other texts", "anchors": ["src/c4/format.hpp:catrs_append"]}
{"id": "C174", "title": "Overwriting a container with views of itself", "statement": "catrs with views of the container among the arguments is either stopped by an assertion or gives the container the texts as they were before the call.", "quantifier": "all containers, capacities and views of them", "why_tests_cant": "tests use arguments from elsewhere", "anchors": ["src/c4/format.hpp:catrs"]}
{"id": "C175", "title": "Assertions for making and removing room, and for copying objects", "statement": "With assertions, the functions that make room for or remove elements of a buffer, or copy or move several objects, stop exactly at those calls whose sizes and positions make no sense (negative, beyond the elements, or more than the buffer takes) or whose ranges have an object in common, and do otherwise what they do without assertions.", "quantifier": "all integer types of sizes, all sizes, positions and contents", "why_tests_cant": "tests are built without assertions or only make correct calls", "anchors": ["src/c4/ctor_dtor.hpp:make_room", "src/c4/ctor_dtor.hpp:destroy_room", "src/c4/ctor_dtor.hpp:copy_construct_n", "src/c4/ctor_dtor.hpp:move_construct_n"]}
{"id": "C176", "title": "Assertions of the memory helpers", "statement": "With assertions, repeating a pattern stops exactly when pattern and destination share a byte and fills the destination otherwise; raw data accepts exactly the alignments that are powers of two; a blob of objects accepts exactly aligned pointers; the lowest and highest bit are found for all numbers but zero, which stops. Without assertions repeating a pattern is undefined exactly when the pattern overlaps its first copy.", "quantifier": "all memories, offsets, pattern sizes and counts; all alignments, pointers, widths and numbers", "why_tests_cant": "tests only make correct calls, and cannot observe undefined behaviour", "anchors": ["src/c4/memory_util.hpp:mem_repeat", "src/c4/memory_util.hpp:lsb", "src/c4/memory_util.hpp:msb", "src/c4/format.hpp:raw", "src/c4/blob.hpp:blob_"]}
{"id": "C177", "title": "Copies of small allocators", "statement": "A copy of a SmallAllocator is equal to the original and can release the blocks of the original; copies hand out memory apart from that of the original, also after assignments; an allocator made from one for another type begins empty.", "quantifier": "all states of the allocators, all numbers of objects", "why_tests_cant": "a wrong release or overlap shows only when the memory is used again", "anchors": ["src/c4/allocator.hpp:SmallAllocator"]}
{"id": "C178", "title": "The self test of base64 finds every error in the tables", "statement": "base64_test_tables() succeeds if and only if the two tables are inverse to one another, reports an error otherwise, and reads nothing outside of them; the tables of the library pass it.", "quantifier": "all tables of 64 characters and 128 entries, both kinds of char", "why_tests_cant": "a test can only run it on the tables there are", "anchors": ["src/c4/base64.cpp:base64_test_tables"]}
{"id": "C179", "title": "Appending separated or formatted views of a container to it", "statement": "catseprs_append and formatrs_append with views of the container as separator, format text or arguments append the separated or formatted texts as they were before the call, and return the part appended.", "quantifier": "all containers, capacities, policies of growth, separators, format texts and sequences of arguments", "why_tests_cant": "which block is read after a reallocation depends on capacity and allocator; undefined reads often give the expected text", "anchors": ["src/c4/format.hpp:catseprs_append, formatrs_append, catsep, format; src/c4/std/string.hpp:to_substr"]}
{"id": "C180", "title": "Overwriting a container with separated or formatted views of itself", "statement": "catseprs and formatrs with views of the container as separator, format text or arguments are either stopped by an assertion or give the container the separated or formatted texts as they were before the call.", "quantifier": "all containers, capacities, separators, format texts and sequences of arguments", "why_tests_cant": "whether a view is overwritten before it is read depends on the lengths of all texts before it", "anchors": ["src/c4/format.hpp:catseprs, formatrs, catsep, format"]}
{"id": "C181", "title": "Assigning new containers made from views of the containers assigned", "statement": "In any sequence of statements x = catrs<C>(...), x = catseprs<C>(...), x = formatrs<C>(...) whose arguments, separators and format texts are texts or views of the containers, x itself included, each statement gives x the joined, separated or formatted texts as they were before it and leaves the other containers as they are.", "quantifier": "all programs of such statements, containers, capacities, policies of growth, views inside of their containers, with and without assertions", "why_tests_cant": "the functions that overwrite a container fail for views of it, depending on all lengths and capacities; tests of the functions that return a new one use literals", "anchors": ["src/c4/format.hpp:catrs, catseprs, formatrs (returning a container)"]}
{"id": "C182", "title": "Over a whole period every number is returned equally often", "statement": "A splitmix of any seed returns, in its first 2^64 calls, every 32-bit number exactly 2^32 times and is then in the state it began with; an xorshift of any seed other than 0 does so in 2^64 - 1 calls, with every number other than 0 returned 2^32 times and 0 once less.", "quantifier": "all seeds, all 32-bit numbers, the whole period", "why_tests_cant": "2^64 calls cannot be run; a statistical test of a sample cannot tell an exactly even distribution from a slightly uneven one", "anchors": ["src/c4/ext/rng/rng.hpp:splitmix::operator(), xorshift::operator()"]}
