#!/usr/bin/env python3
"""Source of /verif/properties.jsonl (run from anywhere; writes the file)."""
import json, os
P = []
def p(id, title, statement, quantifier, why, *anchors):
    P.append(dict(id=id, title=title, statement=statement, quantifier=quantifier,
                  why_tests_cant=why, anchors=list(anchors)))
CC = "src/c4/charconv.hpp"; SS = "src/c4/substr.hpp"; FM = "src/c4/format.hpp"
MU = "src/c4/memory_util.hpp"; B64 = "src/c4/base64.cpp"; SP = "src/c4/span.hpp"
DU = "src/c4/dump.hpp"; MR = "src/c4/memory_resource.hpp"; MRC = "src/c4/memory_resource.cpp"
AL = "src/c4/allocator.hpp"; EN = "src/c4/enum.hpp"; BM = "src/c4/bitmask.hpp"
CD = "src/c4/ctor_dtor.hpp"
FA = "src/c4/ext/fast_float_all.h"

# ---------------------------------------------------------------- charconv: writing
p("C01", "Decimal writing is canonical and exact",
  "For every non-negative value v of an 8/16/32/64-bit integer type and every buffer that is large enough, write_dec(buf, v) stores exactly the canonical base-10 numeral of v (no leading zero unless v is 0, digits evaluate to v) in the first characters, leaves every other byte of the buffer unchanged, never accesses memory outside the buffer, and returns the numeral's length.",
  "all four widths, all values of each width, all buffers at least as long as the numeral, arbitrary prior buffer contents",
  "2^64 values times all buffer contents; the loop works on pairs of digits through a lookup table and the length comes from a separately written branch tree, so sampled values do not exclude a wrong boundary.",
  f"{CC}:write_dec", f"{CC}:write_dec_unchecked", f"{CC}:digits_dec")
p("C02", "Hex, octal and binary writing is canonical and exact",
  "For every non-negative value v of an 8/16/32/64-bit type and every large enough buffer, write_hex/write_oct/write_bin store exactly the canonical lower-case base-16/8/2 numeral of v, touch nothing else, and return its length.",
  "three radices, four widths, all values, all large enough buffers with arbitrary contents",
  "the value domain is 2^64 and the digit count is computed by unrelated code (highest-set-bit or a division loop)",
  f"{CC}:write_hex", f"{CC}:write_oct", f"{CC}:write_bin", f"{CC}:write_hex_unchecked")
p("C03", "Digit counting functions are exact",
  "digits_dec, digits_hex, digits_oct and digits_bin return, for every non-negative value of each integer width, exactly the number of digits of the canonical numeral in that radix.",
  "all values of 8/16/32/64-bit types in four radices",
  "a comparison tree with 20 literal thresholds; one misplaced zero is wrong only on a narrow interval",
  f"{CC}:digits_dec", f"{CC}:digits_hex", f"{CC}:digits_oct", f"{CC}:digits_bin")
p("C04", "Too-small buffers: unsigned and decimal writers do not write and report the needed size",
  "When the buffer is shorter than the text, write_dec/hex/oct/bin, utoa(buf,v), utoa(buf,v,radix) and itoa(buf,v) leave the whole buffer unchanged and return the size that makes a second call succeed; the returned size never depends on the buffer.",
  "all values, all radices, all buffers including the empty one",
  "the failing buffers are every length below the requirement for every value; a stray write is only visible if the test checks every byte",
  f"{CC}:write_dec", f"{CC}:utoa", f"{CC}:itoa")
p("C05", "Too-small buffers: itoa with a radix performs no write",
  "itoa(buf, v, radix) and itoa(buf, v, radix, num_digits) documented as 'no writes will occur' on a too small buffer leave the buffer unchanged and return the needed size.",
  "all signed values, radices, digit counts and all too-short buffers",
  "needs the full cross product of value sign, radix and buffer length with a check of every byte",
  f"{CC}:itoa", f"{CC}:detail::_itoa2buf")
p("C06", "Zero padded writing",
  "write_dec/hex/oct/bin(buf, v, num_digits) produce exactly max(num_digits, digits(v)) characters: the canonical numeral preceded by zeros; the rest of the buffer is unchanged and the returned value is that size. A buffer too short for the padded text is never written out of bounds.",
  "all values, all requested widths, all buffers",
  "unbounded widths, overlapping memmove and memset, and the cases where only the number or neither fits",
  f"{CC}:write_num_digits", f"{CC}:write_dec")
p("C07", "utoa with radix (and padding) writes prefix plus numeral",
  "utoa(buf, v, radix) and utoa(buf, v, radix, num_digits) write exactly the radix prefix (none, 0x, 0o, 0b) followed by the (zero padded) canonical numeral when the buffer is large enough, leave the rest untouched and return the exact size.",
  "all unsigned values of each width, four radices, all digit counts (the padded form for counts below 2^32-3), all large enough buffers",
  "cross product of value, radix, padding and buffer length is unbounded",
  f"{CC}:utoa")
p("C08", "itoa writes sign, prefix and magnitude, including the minimum value",
  "itoa(buf, v), itoa(buf, v, radix), itoa(buf, v, radix, num_digits) write '-' exactly for negative v, then the radix prefix, then the (zero padded) canonical numeral of |v|, for every signed value including the type's minimum whose negation overflows; the rest of the buffer is untouched and the returned size is exact.",
  "all signed values of each width, four radices, all digit counts below 2^32-3, all large enough buffers",
  "minimum values take a separate table-driven path; every width has its own hand written strings",
  f"{CC}:itoa", f"{CC}:detail::_itoa2buf", f"{CC}:charconv_digits_")
p("C09", "Padded utoa/itoa: requested widths of 2^32 and more",
  "The size returned by utoa/itoa with num_digits is at least num_digits for every num_digits representable in size_t.",
  "all size_t digit counts",
  "a test would need to ask for 4 GiB wide numbers",
  f"{CC}:utoa", f"{CC}:itoa")
# ---------------------------------------------------------------- charconv: reading
p("C10", "read_dec/hex/oct/bin accept exactly digit strings and compute the value modulo the type",
  "For every non-empty string, read_dec/read_hex/read_oct/read_bin return true exactly when every character is a digit of the radix, and then the stored value is the positional value of the string reduced modulo 2^width (two's complement for signed types); otherwise they return false.",
  "all strings of all lengths, all integer widths and signedness, four radices",
  "unbounded strings; wrap-around behaviour on every overflow amount",
  f"{CC}:read_dec", f"{CC}:read_hex", f"{CC}:read_oct", f"{CC}:read_bin")
p("C11", "atou accepts exactly the documented language with the right value",
  "atou(str,&v) returns true exactly for: a non-empty decimal digit string, or 0x/0X, 0o/0O, 0b/0B followed by at least one digit of that radix; leading '-' or '+' or whitespace or trailing garbage is refused; on success v is the value modulo 2^width. It never reads outside the string.",
  "all strings, all unsigned widths",
  "language equality over all strings",
  f"{CC}:atou")
p("C12", "atoi accepts exactly the documented language with the right value",
  "atoi(str,&v) returns true exactly for an optional single '-' followed by a string of the atou language; the stored value is the signed value reduced modulo 2^width; no read outside the string.",
  "all strings, all signed widths",
  "language equality over all strings plus negative/zero-leading corner cases at every position",
  f"{CC}:atoi")
p("C13", "Integer text round trip",
  "For every integer value of every width, in every radix and with every zero padding, reading back with atoi/atou (from_chars) the text written by itoa/utoa (to_chars) succeeds and returns the same value - including the minimum of signed types.",
  "all values x widths x radices x paddings (below 2^32-3 digits when written by the library, see C09)",
  "2^64 values with unbounded padding; min values rely on wrap-around",
  f"{CC}:itoa", f"{CC}:utoa", f"{CC}:atoi", f"{CC}:atou", f"{CC}:to_chars", f"{CC}:from_chars")
p("C14", "Reading an in-range integer performs no signed overflow",
  "For every text whose value is in the range of the signed target type, atoi performs no signed-overflowing multiplication, addition or negation (in the promoted arithmetic type).",
  "all accepted strings denoting in-range values, widths 8-64",
  "the overflow only shows under a sanitizer on the exact boundary value and the sources suppress that sanitizer",
  f"{CC}:atoi", f"{CC}:read_dec")
p("C15", "overflows<unsigned> is exact",
  "For every string accepted by atou, overflows<T>(str) is true exactly when the number denoted by the string does not fit in the unsigned type T.",
  "all strings of the atou language (any number of leading zeros, any length), widths 8/16/32/64",
  "strings are unbounded; the check is lexical (length and digit comparison against literal limit strings)",
  f"{CC}:overflows", f"{CC}:check_overflow", f"{CC}:charconv_digits_")
p("C16", "overflows<signed> is exact",
  "For every string accepted by atoi, overflows<T>(str) is true exactly when the denoted number is outside the range of the signed type T; and it performs no out-of-bounds read on any string.",
  "all strings of the atoi language for exactness; all strings for memory safety; widths 8/16/32/64",
  "unbounded strings; the two halves (negative/non-negative) use different limit tables per radix",
  f"{CC}:overflows", f"{CC}:is_oct_overflow")
p("C17", "Overflow-checked reading never returns a wrapped value",
  "from_chars(str, fmt::overflow_checked(v)) returns true only if the string denotes a number in the range of the type and then v is exactly that number; it returns false for every out-of-range or malformed string.",
  "all strings, widths 8-64 signed and unsigned",
  "wrong acceptance would be a silently wrapped value for some unbounded-length string",
  f"{FM}:overflow_checked", f"{CC}:overflows")
p("C18", "atoi_first/atou_first return the end offset of the number they converted",
  "When atoi_first/atou_first return a value n other than npos, the first n characters of the input consist of leading whitespace followed by a text accepted by atoi/atou, the stored value is that text's value, and the number is followed by the end of the string or a delimiter. Whenever the input begins like this, n and the value are returned.",
  "all strings, all widths",
  "all strings; the span scanner and the converter are different pieces of code that must agree",
  f"{CC}:atoi_first", f"{CC}:atou_first", f"{SS}:first_int_span", f"{SS}:first_uint_span")
p("C19", "Every integral span found by first_int_span is convertible",
  "If first_int_span()/first_uint_span() finds a non-empty number in a string, atoi_first/atou_first convert it.",
  "all strings",
  "agreement of two hand-written grammars over all strings",
  f"{SS}:_first_integral_span", f"{CC}:atoi_first")
p("C20", "bool, char and string conversions round trip with bounded writes",
  "to_chars for bool, char and strings writes at most the buffer, returns the full size needed, and from_chars of the full text gives back the value; strings longer than the buffer are truncated to a prefix and never overrun.",
  "all values, all strings, all buffers",
  "all buffer sizes and contents",
  f"{CC}:to_chars", f"{CC}:from_chars", "src/c4/std/string.hpp:to_chars", "src/c4/std/vector.hpp:to_chars")
p("C21", "from_chars_first(bool) accepts leading whitespace like the other overloads",
  "from_chars_first(str, bool*) skips leading whitespace, converts the first non-empty span and returns the number of characters up to the end of that span.",
  "all strings", "all strings with any amount of leading whitespace",
  f"{CC}:from_chars_first")
p("C22", "Hexadecimal floating point scanning computes the C value",
  "scan_rhex (used by atof/atod for 0x-prefixed text when fast_float is active) computes the mathematical value of mantissa and binary exponent for every well formed hexadecimal float.",
  "all hexadecimal float strings", "unbounded strings; tests use only digits 0-9 / p+0",
  f"{CC}:scan_rhex")
# ---------------------------------------------------------------- memory_util
p("C23", "msb and lsb are exact",
  "For every non-zero value of every width, msb returns the index of the highest set bit and lsb the index of the lowest set bit; the compile-time versions msb11/lsb11 agree.",
  "all non-zero values, widths 8-64", "2^64 values; the portable fallback uses branch/shift folding per width",
  f"{MU}:msb", f"{MU}:lsb", f"{MU}:msb11", f"{MU}:lsb11")
p("C24", "ipow is integer power",
  "ipow(base, e) for a non-negative exponent is base^e reduced modulo the type's width; for a negative exponent it is the repeated truncating division of 1 by base; all overloads (run-time base, compile-time base, exponent types) agree.",
  "all bases and exponents", "unbounded loop over exponent",
  f"{MU}:ipow")
p("C25", "contiguous_mask sets exactly bits [first,last)",
  "contiguous_mask(first,last) has bit i set iff first <= i < last (within the type), and contiguous_mask11<first,last>() agrees.",
  "all first, last within the type width, all widths", "quadratic in positions for every type; compile-time recursion is separate code",
  f"{MU}:contiguous_mask", f"{MU}:contiguous_mask11")
p("C26", "mem_repeat tiles the destination",
  "mem_repeat(dest, pattern, psz, n) fills exactly psz*n bytes of dest with n copies of the pattern and touches nothing else, with no overlapping memcpy.",
  "all patterns, sizes and repeat counts", "the doubling loop has a different last chunk for each count; unbounded",
  "src/c4/memory_util.cpp:mem_repeat")
p("C27", "mem_overlaps is exact",
  "mem_overlaps(a,b,sza,szb) is true iff two non-empty ranges [a,a+sza) and [b,b+szb) share an address.",
  "all addresses and sizes", "relative positions of two intervals are unbounded",
  f"{MU}:mem_overlaps")
# ---------------------------------------------------------------- substr
p("C28", "String comparison is a total lexicographic order",
  "compare() and the derived operators ==,!=,<,<=,>,>= form a total order on strings that is lexicographic on characters with a proper prefix ordered first; compare()==0 exactly for equal contents; swapping the arguments flips the sign.",
  "all pairs/triples of strings (including empty and null)", "transitivity and antisymmetry over all triples",
  f"{SS}:compare", f"{SS}:operator==", f"{SS}:operator<")
p("C29", "find and character searches return the extremal match",
  "find(sub), find(char), first_of, last_of, first_not_of, last_not_of (char and char-set forms, with start positions) return the smallest/largest index satisfying the match condition, or npos exactly when there is none; no read outside the string.",
  "all strings, patterns, sets and start positions", "all strings and patterns",
  f"{SS}:find", f"{SS}:first_of", f"{SS}:last_of", f"{SS}:first_not_of", f"{SS}:last_not_of")
p("C30", "count counts",
  "count(c,pos) is the number of occurrences of c at or after pos; count(sub,pos) is the number of leftmost non-overlapping occurrences at or after pos; both terminate for every argument.",
  "all strings, patterns, positions", "termination and exactness over all strings/patterns",
  f"{SS}:count")
p("C31", "trim removes maximal runs and nothing else",
  "triml/trimr/trim(c or set) return the unique sub-view obtained by removing the maximal leading/trailing run of matching characters; the result is a contiguous part of the original view.",
  "all strings and sets", "all strings", f"{SS}:triml", f"{SS}:trimr", f"{SS}:trim")
p("C32", "begins_with/ends_with and stripl/stripr agree with prefix/suffix",
  "begins_with(p) iff p is a prefix, ends_with(p) iff p is a suffix (also the any-of and repeated-char forms); stripl/stripr remove exactly one occurrence when present and otherwise return the view unchanged.",
  "all strings and patterns", "all pairs of strings", f"{SS}:begins_with", f"{SS}:ends_with", f"{SS}:stripl", f"{SS}:stripr")
p("C33", "Sub-view selectors stay inside and partition the view",
  "sub, range, first, last, offs, left_of, right_of (position and sub-view forms) return views inside the original for all arguments the assertions admit, and left_of(pos)+[pos]+right_of(pos) reconstructs the original contents.",
  "all views and all arguments admitted by the assertions", "index arithmetic with npos wrap-around on all positions",
  f"{SS}:sub", f"{SS}:range", f"{SS}:first", f"{SS}:last", f"{SS}:offs", f"{SS}:left_of", f"{SS}:right_of")
p("C34", "split is the inverse of join",
  "Iterating str.split(sep) over a non-empty string yields exactly count(sep)+1 pieces, none containing sep, which joined with sep give back the string; over an empty string it yields none; iteration always terminates and never reads outside the string.",
  "all strings and separators", "all strings; iterator end conditions at trailing separators",
  f"{SS}:split", f"{SS}:split_proxy", f"{SS}:next_split")
p("C35", "next_split enumerates the same pieces as split",
  "The loop `pos=0; while(str.next_split(sep,&pos,&out))` terminates and produces exactly the pieces of split(sep).",
  "all strings and separators", "all strings; a stateful protocol driven by the caller",
  f"{SS}:next_split")
p("C36", "pop/gpop/basename/dirname decompose the string at separators",
  "pop_right/pop_left return the part after the last / before the first separator (optionally skipping empty trailing/leading parts) and gpop_left/gpop_right the complementary part, such that gpop and pop reassemble the string around one separator; basename/dirname satisfy dirname + basename == path for paths without trailing separator.",
  "all strings, separators and flags", "all strings with arbitrary runs of separators",
  f"{SS}:pop_right", f"{SS}:pop_left", f"{SS}:gpop_left", f"{SS}:gpop_right", f"{SS}:basename", f"{SS}:dirname")
p("C37", "reverse family",
  "reverse() reverses the view in place, reverse_sub/reverse_range reverse exactly the designated part and leave the rest unchanged; reversing twice restores the contents.",
  "all strings and ranges", "all lengths and ranges", f"{SS}:reverse", f"{SS}:reverse_sub", f"{SS}:reverse_range")
p("C38", "erase family",
  "erase(pos,num)/erase_range(first,last) move the tail down so that the returned view is the original without the erased part; bytes beyond the returned view inside the buffer are not modified outside the move.",
  "all strings, positions and counts admitted", "all lengths and ranges with overlapping memmove",
  f"{SS}:erase", f"{SS}:erase_range")
p("C39", "replace(chars) replaces exactly matching characters",
  "replace(c, repl, pos) and replace(set, repl, pos) change exactly the matching characters at or after pos, leave all others, and return how many were changed.",
  "all strings, sets, positions", "all strings", f"{SS}:replace")
p("C40", "replace_all implements leftmost non-overlapping substitution with a size protocol",
  "replace_all(dst, pattern, repl, pos) returns the size of the substituted string independent of dst, and when dst is large enough writes exactly that string; dst is never overrun.",
  "all strings, patterns (non-empty), replacements, positions and destination sizes", "all strings and patterns; size/bounds arithmetic",
  f"{SS}:replace_all")
p("C41", "pair_range finds the delimited range",
  "pair_range(open,close) returns the sub-view from the first `open` to the first following `close` inclusive; pair_range_nested returns the sub-view from the first `open` to its balancing `close` (with the same character for both there is none); pair_range_esc skips escaped closers; otherwise an empty view.",
  "all strings and delimiters", "nesting depth and escapes unbounded", f"{SS}:pair_range", f"{SS}:pair_range_nested", f"{SS}:pair_range_esc")
p("C42", "unquoted strips exactly one pair of matching quotes",
  "unquoted() removes one pair of equal surrounding quotes (single or double) and otherwise returns the view unchanged.",
  "all strings", "all strings", f"{SS}:unquoted")
p("C43", "Integral span scanner: result is an exact number token",
  "first_uint_span/first_int_span return either an empty view or the sub-view starting at the first non-whitespace character that is a full integer token (optional sign, radix prefix, digits) followed by a delimiter or the end.",
  "all strings", "token grammar over all strings", f"{SS}:first_uint_span", f"{SS}:first_int_span", f"{SS}:_first_integral_span")
p("C44", "is_unsigned_integer/is_integer/is_number agree with the spans",
  "is_unsigned_integer()/is_integer() hold exactly if the whole string is a single integer token; an integer is a number.",
  "all strings", "agreement over all strings", f"{SS}:is_integer", f"{SS}:is_unsigned_integer", f"{SS}:is_number", f"{SS}:is_real")
p("C45", "Real span scanner never leaves the string and returns a prefix token",
  "first_real_span() never reads outside the string and returns an empty view or a view starting at the first non-whitespace character which is followed by a delimiter or the end; when it is purely digits with optional sign it is the full digit run.",
  "all strings", "many-state hand written scanner; memory safety over all strings", f"{SS}:first_real_span", f"{SS}:_first_real_span_dec", f"{SS}:_first_real_span_hex")
p("C46", "Sub-view relations",
  "is_sub/is_super hold exactly when one view's address range is contained in the other's; overlaps holds exactly when the two views share at least one character.",
  "all pairs of views", "relative positions of two ranges unbounded", f"{SS}:is_super", f"{SS}:is_sub", f"{SS}:overlaps")
p("C47", "first_of_any returns the earliest of several patterns",
  "first_of_any(s0,s1,...) reports a match iff some pattern occurs, with pos the smallest position where any pattern occurs and which one a pattern occurring there.",
  "all strings and pattern lists", "all strings and patterns", f"{SS}:first_of_any")
p("C48", "In-place case conversion, fill and copy_from",
  "toupper/tolower change exactly ASCII letters; fill sets all characters; copy_from copies min(len) characters at the given position; none changes anything else.",
  "all strings and arguments", "all contents", f"{SS}:toupper", f"{SS}:tolower", f"{SS}:fill", f"{SS}:copy_from")
# ---------------------------------------------------------------- format
p("C49", "cat writes the concatenation, bounded, and returns the needed size",
  "cat(buf, args...) for any list of arguments never writes outside buf, returns a size that does not depend on buf, and if that size is <= buf.len the first bytes of buf are exactly the concatenation of the arguments' texts and the rest is unchanged.",
  "all argument lists (any number), all buffers", "variadic recursion over any number of arguments x all buffer sizes", f"{FM}:cat", f"{FM}:cat_sub")
p("C50", "catsep writes the separated concatenation, bounded, and returns the needed size",
  "catsep(buf, sep, args...) behaves as C49 with sep between consecutive arguments.",
  "all argument lists, separators, buffers", "as C49", f"{FM}:catsep", f"{FM}:catsep_more")
p("C51", "format substitutes arguments in order, bounded, and returns the needed size",
  "format(buf, fmt, args...) replaces successive {} by the arguments in order, copies all other text verbatim, ignores surplus arguments, keeps surplus {} literally, never writes outside buf and returns a size independent of buf; when the size fits the output is exactly the substituted text.",
  "all format strings, argument lists and buffers", "all format strings x argument counts x buffer sizes", f"{FM}:format")
p("C52", "Resizing variants terminate with the exact text",
  "catrs/catseprs/formatrs resize the container at most to the needed size, terminate after at most one retry, and leave the container equal to the text; the append variants keep the previous contents as prefix.",
  "all argument lists, initial container sizes", "a retry loop that recurses until it fits", f"{FM}:catrs", f"{FM}:catseprs", f"{FM}:formatrs", f"{FM}:catrs_append")
p("C53", "uncatsep inverts catsep and unformat inverts format for integers",
  "For every list of integers, reading back with uncatsep (single-character separator) or unformat the text produced by catsep/format returns the same integers and consumes the whole text.",
  "all integer lists, all separators that are delimiters for the scanner", "unbounded lists of 2^64 values", f"{FM}:uncatsep", f"{FM}:unformat", f"{FM}:uncat")
p("C54", "Alignment padding respects the buffer",
  "to_chars(buf, fmt::left(v,w)) / fmt::right(v,w) never write outside buf, return max(w,size) and when it fits the text is v padded to width w on the proper side.",
  "all values, widths, pad characters and buffers", "all width/buffer/size orderings", f"{FM}:left_", f"{FM}:right_")
p("C55", "Raw binary output/input round trip",
  "to_chars/from_chars with fmt::raw copy the value bytes at the next aligned position if they fit there, never access outside the buffer, return a size that is within the buffer exactly when the bytes were stored and is always sufficient, and reading the buffer returns the same bytes.",
  "all values, alignments, buffer addresses and sizes", "alignment depends on the run-time address", "src/c4/format.cpp:to_chars", "src/c4/format.cpp:from_chars", f"{FM}:raw_wrapper")
# ---------------------------------------------------------------- base64 / utf
p("C56", "base64_encode produces the RFC 4648 encoding with bounded writes",
  "base64_encode(buf,data) returns 4*ceil(n/3) and, if the buffer is large enough, writes exactly the RFC 4648 encoding with padding; it never writes outside the buffer for any buffer size.",
  "all byte strings, all buffers", "all byte strings", f"{B64}:base64_encode")
p("C57", "base64 round trip",
  "base64_decode(base64_encode(data)) returns data for every byte string, and base64_valid accepts every encoder output.",
  "all byte strings of all lengths", "all byte strings", f"{B64}:base64_encode", f"{B64}:base64_decode", f"{B64}:base64_valid")
p("C58", "base64_decode writes are bounded and the size is reported independent of the buffer",
  "For every text which base64_valid accepts (the asserted precondition) and every buffer base64_decode never writes outside the buffer, and the returned size does not depend on the buffer. In release mode the same holds for every other text too, except that a length which is no multiple of four is reported, and that the lookup table is read out of bounds exactly if one of the characters standing for data - those before the first quartet padded in its third or fourth place, and before the padding in it - is above 127.",
  "all texts and buffers", "all texts including malformed ones", f"{B64}:base64_decode")
p("C59", "base64_valid accepts only well formed encodings",
  "base64_valid(text) is true only if text is a well formed padded base64 string (padding only in the last one or two positions of the last group).",
  "all texts", "language inclusion over all strings", f"{B64}:base64_valid")
p("C60", "Code points are encoded as UTF-8",
  "decode_code_point(buf, code) writes exactly the UTF-8 encoding of every Unicode scalar value and returns its length (1-4); values above 0x10FFFF write nothing and return 0; no more than 4 bytes are written.",
  "all 2^32 code values", "the boundaries of four ranges and bit packing for 1.1M code points; encodings must be pairwise distinct and self-delimiting", "src/c4/utf.cpp:decode_code_point")
# ---------------------------------------------------------------- span
p("C61", "Resizable spans with history recover the original buffer",
  "After any sequence of subspan/range/first/last/resize/ltrim/rtrim operations (arguments in range) on a spanrsl, original() is the view the sequence started from, and the span always lies inside it.",
  "all operation sequences of any length", "all histories", f"{SP}:spanrsl", f"{SP}:original")
p("C62", "Spans never exceed their capacity",
  "For span and spanrs, after any sequence of operations with arguments in range the viewed range [data,data+size) and the growth range [data,data+capacity) stay inside the initial range, and every selection shows exactly the elements asked for.",
  "all operation sequences", "all histories", f"{SP}:span", f"{SP}:spanrs")
p("C63", "Span comparison",
  "operator== on spans holds exactly when sizes and all elements agree; operator< is lexicographic.",
  "all pairs of spans", "all pairs of spans; pre-C++14 build uses different code", f"{SP}:operator==", f"{SP}:operator<")
# ---------------------------------------------------------------- dump
p("C64", "cat_dump/catsep_dump/format_dump stream all arguments in order",
  "If the scratch buffer is not empty and at least as large as the reported requirement, the sink receives exactly the concatenation (separated / formatted) of the arguments; the reported requirement does not depend on the buffer. With a smaller buffer the sink receives a prefix of that text, with an empty one nothing.",
  "all argument lists and buffers", "any number of arguments mixed strings/non-strings", f"{DU}:cat_dump", f"{DU}:catsep_dump", f"{DU}:format_dump")
p("C65", "cat_dump_resume delivers every argument exactly once, in order",
  "Calling cat_dump_resume with a growing buffer until it reports success sends to the sink exactly the concatenation of the arguments, once each, in order.",
  "all argument lists and buffer histories", "all histories of failures and retries", f"{DU}:cat_dump_resume", f"{DU}:DumpResults")
p("C66", "catsep_dump_resume and format_dump_resume lose nothing",
  "Calling catsep_dump_resume / format_dump_resume with a growing buffer until success sends exactly the separated / formatted text once.",
  "all argument lists, format strings and buffer histories", "all histories of failures and retries", f"{DU}:catsep_dump_resume", f"{DU}:format_dump_resume")
# ---------------------------------------------------------------- memory resources
p("C67", "The linear memory resource hands out disjoint aligned blocks inside its buffer",
  "After any sequence of allocate/deallocate/reallocate calls, every live block returned by MemoryResourceLinear lies inside the buffer, is aligned as requested, and live blocks are pairwise disjoint; out-of-memory is reported rather than overrunning; after clear() the whole buffer is available again (sizes within the address space, reallocation with the alignment of the block).",
  "all call sequences, sizes and alignments, all buffer base addresses", "all call histories", f"{MRC}:MemoryResourceLinear::do_allocate", f"{MRC}:MemoryResourceLinear::do_reallocate")
p("C68", "Reallocation preserves the old contents",
  "reallocate(ptr, oldsz, newsz) on MemoryResourceLinear and the default arealloc return a block whose first min(oldsz,newsz) bytes equal the old block's.",
  "all contents, sizes and allocator states", "depends on allocator history", f"{MRC}:do_reallocate", f"{MRC}:arealloc_impl")
p("C69", "Owned linear memory is acquired from and returned to the parent resource",
  "acquire(sz) on a live MemoryResourceLinear obtains sz bytes from the parent resource, and release() returns the owned chunk to it exactly once.",
  "all histories of acquire/release", "virtual dispatch differs between construction and normal operation", f"{MRC}:_MemoryResourceSingleChunk::acquire", f"{MRC}:_MemoryResourceSingleChunk::release")
p("C70", "Allocation counters are exact",
  "After any sequence of successful calls on MemoryResourceCounts, curr is the number and total size of live blocks, total the number and size of all allocations, max the componentwise maximum of curr over the history; and curr <= max <= total.",
  "all call sequences", "all histories", f"{MR}:MemoryResourceCounts", f"{MR}:AllocationCounts")
p("C71", "SmallAllocator never hands out overlapping live blocks",
  "After any sequence of allocate/deallocate calls on SmallAllocator, in any order of release, live blocks are pairwise disjoint.",
  "all call sequences", "all histories", f"{AL}:SmallAllocator")
p("C72", "Scoped memory resources nest",
  "After any properly nested sequence of ScopedMemoryResource / ScopedMemoryResourceCounts constructions and destructions the global resource is the one before the outermost scope, and inside it is the one installed by the innermost scope.",
  "all nestings", "unbounded nesting", f"{MR}:ScopedMemoryResource", f"{MR}:ScopedMemoryResourceCounts")
# ---------------------------------------------------------------- enum / bitmask
p("C73", "Enum to string and back",
  "For every enum symbol table with pairwise distinct values and names, str2e(e2str(v)) == v, also for names with the class/prefix offset removed; e2str of a value not in the table is an error.",
  "all tables and symbols", "all tables", f"{EN}:str2e", f"{EN}:e2str", f"{EN}:Sym::cmp")
p("C74", "Finding an enum symbol by (string,length) matches whole names only",
  "EnumSymbols::find(s,len) returns a symbol only if its name (full or with an offset removed) equals the given string.",
  "all tables and strings", "all pairs", f"{EN}:find", f"{EN}:cmp")
p("C75", "Bitmask to string covers exactly the bits",
  "When bm2str succeeds, the symbols it writes OR together to exactly the given bits, each contributing a new bit; the size query call returns exactly the size needed and written by the second call.",
  "all tables, all bit patterns, all buffer sizes", "all tables and patterns; composite symbols", f"{BM}:bm2str", f"{BM}:bm2stream")
p("C76", "Bitmask string round trip",
  "str2bm(bm2str(bits)) == bits for every bits for which bm2str succeeds.",
  "all tables and bit patterns", "all tables and patterns", f"{BM}:str2bm", f"{BM}:bm2str")
# ---------------------------------------------------------------- misc
p("C77", "hash_bytes is FNV-1a and incremental",
  "Feeding data in any number of chunks gives the same digest as feeding it at once, and each byte step is a bijection of the state.",
  "all byte strings and all ways to chunk them", "all chunkings", "src/c4/hash.hpp:basic_fnv1a", "src/c4/hash.hpp:hash_bytes")
p("C78", "szconv preserves values",
  "szconv<Out>(n) returns n for every non-negative n representable in Out and asserts otherwise, for every pair of integral types.",
  "all pairs of types and values", "all type pairs and values", "src/c4/szconv.hpp:szconv", "src/c4/szconv.hpp:is_narrower_size")
p("C79", "make_integer_sequence generates 0..N-1",
  "The C++11 make_integer_sequence<N> is exactly the sequence 0,1,...,N-1.",
  "all N", "template recursion over all N", "src/c4/types.hpp:make_integer_sequence", "src/c4/types.hpp:__make")
p("C80", "Size padding helpers",
  "MinSized/MultSized/MinMultSized produce the smallest padding giving at least Min bytes / a multiple of Mult.",
  "all sizes", "all sizes", "src/c4/types.hpp:min_remainder", "src/c4/types.hpp:mult_remainder")
p("C81", "make_room and destroy_room shift elements without loss",
  "make_room(buf,n,room) moves the n elements up by room preserving order for every overlap; destroy_room(buf,n,room) moves the remaining elements down; the out-of-place forms copy around the gap; trivial and non-trivial element paths agree.",
  "all contents, sizes, gaps", "overlap cases for all sizes", f"{CD}:make_room", f"{CD}:destroy_room")
p("C82", "inplace_function constructs and destroys its target exactly once",
  "Over any sequence of constructions, copies, moves, assignments, swaps and destructions of inplace_function objects every stored target is destroyed exactly once, and invoking runs the last assigned target.",
  "all operation sequences", "all histories", "src/c4/ext/sg14/inplace_function.h:inplace_function")
p("C83", "Random generators have defined behaviour",
  "pcg::operator() performs only defined shifts for every state.",
  "all 2^64 states", "undefined shifts are invisible on common hardware", "src/c4/ext/rng/rng.hpp:pcg")
p("C84", "Pointers round trip and from_chars_first reports what it read",
  "to_chars of a pointer followed by from_chars gives the same address; from_chars_first(T**) skips blanks, returns the number of characters read or npos, and stores the pointer only on success.",
  "all addresses, all strings", "all addresses; the failure path reads an uninitialized variable", "src/c4/charconv.hpp:to_chars", "src/c4/charconv.hpp:from_chars_first")
p("C85", "from_chars_first of raw data reports what it read",
  "from_chars_first(buf, fmt::raw(v)) reads the value at the next aligned position and returns the number of characters consumed (alignment gap plus size).",
  "all values, alignments, buffer addresses and sizes", "alignment depends on the run-time address", f"{FM}:from_chars_first", "src/c4/format.cpp:from_chars")
p("C86", "base64_decode yields the bytes the text stands for",
  "For every well formed base64 text (full quartets of letters, the last one possibly padded, any value of the unused bits) there is exactly one byte string whose bits are the leading bits of the text, and base64_decode returns its length and stores as much of it as fits.",
  "all well formed texts, all buffers", "tests decode texts made by the encoder, where the unused bits are zero", "src/c4/base64.cpp:base64_decode")
p("C87", "Span assertions reject out-of-range selections",
  "The assertions of subspan(first, num) admit only selections with first + num <= size, for every index type.",
  "all sizes and arguments representable in the index type", "needs arguments near the top of the index type", f"{SP}:subspan")

p("C88", "The linear resource reports requests that exceed the address space",
  "allocate and reallocate on MemoryResourceLinear succeed only if the requested size fits in the buffer, for every size_t.",
  "all histories and all 2^64 sizes", "needs sizes near SIZE_MAX in a particular allocator state", f"{MRC}:MemoryResourceLinear::do_reallocate", f"{MRC}:MemoryResourceLinear::do_allocate")
p("C89", "A failed call leaves the allocation counters unchanged",
  "If the counted resource reports an error from allocate or reallocate, the counters of MemoryResourceCounts still describe the live blocks.",
  "all histories", "needs a failing resource and an error callback that throws", f"{MR}:MemoryResourceCounts::do_reallocate", f"{MR}:MemoryResourceCounts::do_allocate")
p("C90", "SmallAllocator returns aligned memory",
  "The address returned by SmallAllocator::allocate(n, alignment) is a multiple of alignment.",
  "all element sizes, alignments and histories", "depends on the number of objects allocated before", f"{AL}:SmallAllocator::allocate")
p("C91", "SmallAllocator::reallocate keeps blocks apart",
  "The block returned by SmallAllocator::reallocate does not overlap other live blocks nor blocks allocated later while it is live.",
  "all histories", "needs more than one block", f"{AL}:SmallAllocator::reallocate")
p("C92", "Allocator requests enough memory",
  "Allocator<T>::allocate(n) asks its resource for n*sizeof(T) bytes or reports an error.",
  "all n and element sizes", "needs counts near 2^64/sizeof(T)", f"{AL}:Allocator::allocate", f"{AL}:size_for")
p("C93", "SmallAllocator returns to its resource exactly what came from it",
  "SmallAllocator::deallocate passes a block to the memory resource exactly if allocate obtained it from there.",
  "all histories", "needs an empty block after a full array", f"{AL}:SmallAllocator::deallocate")
p("C94", "Streamed bitmask covers the bits",
  "bm2stream writes the names of symbols of the table whose OR is exactly the given bits, or reports an error.",
  "all tables, all bit patterns", "all tables and patterns", f"{BM}:bm2stream")
p("C95", "Every union of symbols can be written",
  "bm2str succeeds, given a large enough buffer, for every bit pattern that is the OR of symbols of the table.",
  "all tables, all bit patterns", "needs overlapping composite symbols", f"{BM}:bm2str")
p("C96", "Reading a bitmask is defined for every string",
  "str2bm returns a value or reports an error for every string (also in builds without assertions).",
  "all tables, all strings", "needs an empty first item", f"{BM}:str2bm")
p("C97", "Bitmask strings with numbers",
  "str2bm of names and decimal or hexadecimal numbers joined by '|' gives the OR of the values of the names and of the numbers.",
  "all tables, all lists of names and numbers, all underlying types", "all mixtures of names and numbers", f"{BM}:str2bm", f"{BM}:detail::str2bm_read_one")
p("C98", "Conversion between capacities keeps emptiness",
  "An inplace_function converted to one of a larger capacity is empty (compares equal to nullptr) exactly if the original is.",
  "all functions, capacities and chains of conversions", "all histories; depends on the address of a static object per class", "src/c4/ext/sg14/inplace_function.h:inplace_function")
p("C99", "destroy_room ends the lifetime of the removed elements",
  "destroy_room(buf,n,room) destroys exactly room elements: afterwards the first n-room slots hold live objects and the last room slots are raw memory, as make_room and the destructor of a container expect.",
  "all sizes and gaps", "needs an account of object lifetimes for all sizes", f"{CD}:destroy_room")
p("C100", "Hash of a string literal",
  "hash_bytes(\"text\") (the overload for character arrays) is hash_bytes(text, length of the text).",
  "all texts", "all texts", "src/c4/hash.hpp:hash_bytes")
p("C101", "pcg goes through all its states",
  "However a pcg is constructed, its state returns to its initial value after exactly 2^64 calls and not before.",
  "all seeds and numbers of calls", "2^64 calls", "src/c4/ext/rng/rng.hpp:pcg")
p("C102", "splitmix goes through all its states",
  "The state of splitmix returns to its initial value after exactly 2^64 calls and not before, for every seed, and different states are mixed to different 64-bit values.",
  "all seeds, numbers of calls and pairs of states", "2^64 calls and 2^128 pairs", "src/c4/ext/rng/rng.hpp:splitmix")
p("C103", "xorshift goes through all its non-zero states",
  "The step of xorshift is injective and never reaches the state zero from a non-zero one, in any number of calls. From every non-zero state, the state returns after exactly the multiples of 2^64 - 1 calls.",
  "all states and numbers of calls", "all states and histories", "src/c4/ext/rng/rng.hpp:xorshift")
p("C104", "Wide characters needed for a number of bytes",
  "num_needed_chars<wchar_t>(n) is the smallest number of wchar_t with room for n bytes, for any power-of-two sizeof(wchar_t).",
  "all sizes", "all sizes of wchar_t and of the data", "src/c4/char_traits.hpp:num_needed_chars")
p("C105", "Number of whitespace characters",
  "char_traits<C>::num_whitespace_chars is the number of characters of whitespace_chars, for char and wchar_t, and these are exactly the characters for which isspace holds in the C locale.",
  "all character types and characters", "all characters and sizes of wchar_t", "src/c4/char_traits.hpp:char_traits")
p("C106", "Functions on n objects act on each object",
  "construct_n, copy_construct_n, copy_assign_n, move_construct_n, move_assign_n and destroy_n act on each of the n objects and on nothing else, with the same result for trivial types (which use memcpy) and others, for all arguments their assertions admit.",
  "all contents, sizes and positions", "all sizes and positions; object lifetimes are invisible to tests", f"{CD}:construct_n", f"{CD}:copy_construct_n", f"{CD}:copy_assign_n", f"{CD}:move_construct_n", f"{CD}:move_assign_n", f"{CD}:destroy_n")
p("C107", "make_room destroys what it replaces",
  "make_room never constructs an object in the memory of another one that was not destroyed.",
  "all sizes and gaps", "object lifetimes are invisible to tests", f"{CD}:make_room")
p("C108", "Exact 64-bit word arithmetic",
  "leading_zeroes gives the number of zero bits above the highest set bit of a non-zero 64-bit word, and the portable 64x64-bit multiplication gives all 128 bits of the product.",
  "all 64-bit words and pairs of words", "2^64 words and 2^128 pairs", f"{FA}:leading_zeroes_generic", f"{FA}:umul128_generic", f"{FA}:full_multiplication")
p("C109", "The table of powers of five",
  "For every power of ten from -342 to 308 the table holds the leading 128 bits of it, with an error below one unit in the last place, and detail::power gives the position of its leading bit.",
  "all 651 rows", "compares 128-bit rows with exact powers of up to 800 bits", f"{FA}:power_of_five_128", f"{FA}:power")
p("C110", "Eisel-Lemire conversion is always correctly rounded",
  "For every 64-bit w and every q, compute_float gives the float or double nearest to w*10^q, ties to even, including subnormal numbers, zero and infinity, although it computes with a truncated power of ten and never falls back to more precision.",
  "all 64-bit w, all q, float and double, both signs", "2^64 significands for each of 651 powers; the hard cases are rare", f"{FA}:compute_float", f"{FA}:compute_product_approximation", f"{FA}:to_float")
p("C111", "Eight digits at a time",
  "The tests and conversions of eight characters in one 64-bit word decide whether all of them are digits, and give the number they write; skipping zeros eight at a time gives the same as one at a time.",
  "all eight-byte words, all digit texts", "2^64 words", f"{FA}:is_made_of_eight_digits_fast", f"{FA}:parse_eight_digits_unrolled", f"{FA}:skip_zeros", f"{FA}:is_truncated")
p("C112", "Big number arithmetic is exact",
  "The big numbers of fast_float hold exactly the sum, product with a 64-bit number, with a power of five, two or ten, and the digits of a text, as long as the result has at most 62 limbs; they are compared by value, and their bit length and highest 64 bits are exact.",
  "all numbers and operands", "carries over many limbs are rare", f"{FA}:small_mul", f"{FA}:small_add_from", f"{FA}:large_add_from", f"{FA}:long_mul", f"{FA}:bigint", f"{FA}:parse_mantissa")
p("C113", "Text of a decimal floating point number",
  "fast_float::from_chars reads the longest prefix of the text that is a decimal number (optional minus, digits with an optional point, optional exponent with at least one digit), for every text that begins with one: the returned pointer is behind it, and the sign of the result is the one that is written.",
  "all texts, float and double", "all texts, with any number of digits", f"{FA}:from_chars_advanced", f"{FA}:parse_number_string")
p("C114", "Decimal numbers are correctly rounded",
  "For every text that begins with a decimal number, fast_float::from_chars gives the float or double nearest to the number that is written, ties to even, with any number of digits and any exponent, whatever the rounding direction of the thread is.",
  "all texts, float and double, all rounding directions", "hard cases lie within 10^-700 of a tie and need hundreds of digits", f"{FA}:from_chars_advanced", f"{FA}:digit_comp", f"{FA}:compute_error", f"{FA}:parse_number_string")
p("C115", "Infinities and NaNs",
  "fast_float::from_chars accepts, besides numbers, exactly inf, infinity, nan and nan(chars) with letters in any case after an optional minus, reads the longest of them, and leaves the value alone for any other text.",
  "all texts", "all texts", f"{FA}:parse_infnan", f"{FA}:fastfloat_strncasecmp")
p("C116", "atof and atod convert real numbers",
  "atof and atod return true if and only if the whole text is a real number (as decided by is_real) that is in range, and then assign the nearest float or double.",
  "all texts", "all texts", f"{CC}:atof", f"{CC}:atod")
p("C117", "First real number of a text",
  "atof_first and atod_first return the position after the first real number of the text (as found by first_real_span) and assign the nearest float or double, or return npos if there is none or it is out of range.",
  "all texts", "all texts", f"{CC}:atof_first", f"{CC}:atod_first")
p("C118", "Results out of range are reported",
  "fast_float::from_chars reports result_out_of_range if and only if the result is infinite, or zero for a number that is not zero; it assigns the result nevertheless.",
  "all texts that begin with a number", "all texts", f"{FA}:from_chars_advanced")
p("C119", "Any rounding direction gives the same result",
  "rounds_to_nearest() holds exactly if the rounding direction of the thread is to nearest, and from_chars gives the same result for every rounding direction and every text.",
  "all texts and rounding directions", "all texts in four rounding directions", f"{FA}:rounds_to_nearest", f"{FA}:from_chars_advanced")
p("C120", "Bounds of the exact fast path",
  "The bound of the fast path for directed rounding and the power of ten p is, as documented, the largest integer v with v*5^p at most 2^53 (double) or 2^24 (float).",
  "all powers and integers", "a bound that is too small only costs time", f"{FA}:max_mantissa")

p("C121", "Writing a real number",
  "ftoa and dtoa never write outside the buffer, whatever its size. They return the number of characters that the text of the number needs; if this is at most the size of the buffer, the text is at its start and the rest of the buffer is unchanged.",
  "all numbers, precisions, formats and buffers, with std::to_chars and with snprintf", "the buffers in the tests are much larger than the texts", f"{CC}:rtoa", f"{CC}:print_one", f"{CC}:ftoa", f"{CC}:dtoa")
p("C122", "Concatenating and formatting real numbers",
  "cat, catsep and format with real numbers among the arguments give the texts of the arguments in sequence; catrs, catseprs, formatrs and their appending variants give containers with exactly this contents, whatever size the container had.",
  "all argument lists, formats and initial containers", "needed sizes are estimates for real numbers, and one argument's estimate moves all later ones", f"{FM}:cat", f"{FM}:catsep", f"{FM}:format", f"{FM}:catrs")
p("C123", "Aligned real numbers",
  "fmt::left, fmt::center and fmt::right of a real number give its text with padding up to the width, as for any other argument.",
  "all numbers, formats, widths, padding characters and buffers", "the tests align integers and strings only", f"{FM}:to_chars(left_)", f"{FM}:to_chars(right_)", f"{CC}:dtoa")
p("C124", "Real numbers survive being written and read",
  "A number written with dtoa (ftoa) into a sufficient buffer and read with atod (atof) is the same number, bit for bit; infinities stay what they are and NaN stays NaN with its sign.",
  "all numbers and formats", "there are 2^64 doubles, and rounding fails only on few of them", f"{CC}:dtoa", f"{CC}:atod", f"{CC}:ftoa", f"{CC}:atof")

p("C125", "Reporting errors and warnings",
  "When an error is reported, control does not return to the place of the error. According to the flags, the message is logged once with its place, then the callback is called once with the message (at most 1023 characters, terminated) and its size, then an exception with the message is thrown; otherwise the program is aborted. A warning is logged and control returns.",
  "all messages, flags, callbacks and places", "tests cannot observe the abort, and use the default flags with short messages", "src/c4/error.cpp:handle_error", "src/c4/error.cpp:handle_warning")
p("C126", "Error settings for a scope",
  "From the construction of a ScopedErrorSettings its flags or callback are in force, and when it is gone the settings are again those before it, whatever happened in between; when all such objects are gone, the settings are those before the first.",
  "all sequences of statements and lifetimes of objects", "tests nest two scopes at most", "src/c4/error.hpp:ScopedErrorSettings")
p("C127", "Looking for a debugger",
  "is_debugger_attached tells whether a debugger is attached at the time of the call, without undefined behavior for any contents of the process status.",
  "all contents of the status file and all sequences of calls", "the tests run without a debugger", "src/c4/error.cpp:is_debugger_attached")
p("C128", "Names of types",
  "type_name gives the name of the type, without anything else, with every supported compiler.",
  "all names and compilers", "each build tests one compiler and six names", "src/c4/type_name.hpp:type_name")
p("C129", "Comparing string views with standard containers",
  "The six comparisons of a csubstr with a std::string, a std::vector<char> or a std::string_view, in both orders of the arguments, are those of the lexicographic order of the characters, also for empty containers and null views; the order is that of the standard containers.",
  "all strings, comparisons and orders of the arguments", "36 operators, tested on a few ASCII strings", "src/c4/std/string.hpp", "src/c4/std/vector.hpp", "src/c4/std/string_view.hpp")
p("C130", "Variables as base64 text",
  "An array or variable of trivially copyable type written with fmt::base64 and read into another of the same type has the same bytes there; no other memory changes, and the size returned is that of the variable.",
  "all element sizes and counts, all positions in memory", "sizes that are not multiples of three hit different branches", "src/c4/blob.hpp", "src/c4/base64.hpp:to_chars", "src/c4/base64.hpp:from_chars")
p("C131", "Reading real numbers with sscanf",
  "Built without fast_float and std::from_chars, atof/atod convert the characters of the view only, whatever follows it in memory, and read nothing beyond it; text that is not a number is refused and nothing is assigned; the same for the first number of a view, read with atof_first/atod_first.",
  "all views, all contents of the memory around them", "views used in tests are mostly whole zero terminated strings", CC+":detail::scan_one", CC+":atof", CC+":atod")
p("C132", "Views of C strings and literals",
  "A csubstr or substr made of a C string views the characters before its zero, and the null pointer gives an empty view; made of a character array holding a C string it views that string. The six comparisons of a view with a literal or a single character, on either side, are those of the lexicographic order; empty, not_empty and has_str tell whether there are characters.",
  "all strings, arrays, comparisons and orders of the arguments", "arrays larger than their string and views longer than INT_MAX are not tried", SS+":basic_substring", SS+":to_substr", SS+":to_csubstr", SS+":operator==", SS+":operator<")
p("C133", "Integers, pointers and null with a radix or padding",
  "fmt::integral, hex, oct, bin and zpad write integers in the radix named, with its prefix and at least the requested digits; pointers are written as the unsigned value of the address, null as zero; reading the text of a pointer gives it back.",
  "all integer types, values, radices, addresses and widths", "addresses in the upper half of memory do not occur in tests", FM+":fmt::integral", FM+":fmt::hex", FM+":fmt::oct", FM+":fmt::bin", FM+":fmt::zpad")
p("C134", "Aligned allocation",
  "aalloc(size, alignment) reports alignments that are not powers of two; otherwise it returns an address that is a multiple of the alignment (also below the size of a pointer) or reports the lack of memory; the system is only asked for alignments it accepts. Through a memory resource requests of any size get memory or report that there is none.",
  "all sizes, alignments and answers of the system", "failing allocations and odd alignments are not tried", f"{MRC}:aalloc_impl", f"{MR}:MemoryResource::allocate")
p("C135", "Stacked memory resources",
  "Of memory resources that get their memory from one another, each counting one counts exactly the blocks asked of it or of resources on top of it; the system is asked once for every block, for the same size and at least the alignment, and what was obtained and not freed is the memory of the live blocks.",
  "all stacks and trees of resources, all histories of calls to any of them, also failing allocations", "unbounded stacks and histories", f"{MR}:DerivedMemoryResource", f"{MR}:MemoryResourceCounts", f"{MR}:MemoryResourceMalloc", f"{MRC}:arealloc_impl")
p("C136", "Equal allocators release each other's memory",
  "If two Allocators compare equal, memory allocated with one and deallocated with the other goes back to the resource it came from, whatever happens to the global memory resource; copies and rebound allocators are equal to the original; select_on_container_copy_construct gives a default constructed allocator.",
  "all histories of allocations, releases and changes of the global resource", "needs changes of the global resource while blocks are live", f"{AL}:Allocator", f"{AL}:MemRes", f"{AL}:MemResGlobal")
p("C137", "Arithmetic of allocation counts",
  "The difference of the counts after and before some calls are the counts of these calls; the sum of the counts of two resources are those of all their calls.",
  "all histories", "the maximum depends on the interleaving", f"{MR}:AllocationCounts::operator-", f"{MR}:AllocationCounts::operator+", f"{MR}:AllocationCounts::update")
p("C138", "Sizes of spans for any index type",
  "byte_size() of a span is its number of elements times the size of one, and a span assigned an array has the number of elements of the array, for every index type.",
  "all signed and unsigned index types, all sizes", "tests use the default index type, for which no size is too large", f"{SP}:byte_size", f"{SP}:assign")
p("C139", "Element access and identity of spans for any index type",
  "front(), back() and operator[] of a span give the first, the last and the i-th of its elements, for every index type, and accesses outside of it are reported when assertions are enabled. same_span with a span of another index type is true exactly if address and size are equal, and a size that the index type does not have is reported.",
  "all pairs of index types, all spans and indices", "combinations of narrow, wide, signed and unsigned index types are not tried", f"{SP}:front", f"{SP}:back", f"{SP}:operator[]", f"{SP}:same_span")
p("C140", "tight_pair is a pair",
  "A tight_pair holds the two values it was constructed with, an assignment to one leaves the other unchanged, and default construction initializes both, whichever of the two types are empty classes and whether or not they are the same type. Empty classes are not members of it, so that they take no space.",
  "all combinations of empty, non-empty and equal types, all values", "an uninitialized member often happens to be zero", f"{MU}:detail::tight_pair", f"{MU}:detail::tpc_which_case")
p("C141", "Reading a list of numbers from any text",
  "For every text and every list of integral arguments, uncat and uncatsep either return npos or the number of characters read, which is never more than there are. In this case these characters are number texts of the values stored, in the order of the arguments, for uncatsep with one character in between; unsigned arguments are never read from a text with a minus sign. Whenever the text begins with such numbers, they are read. unformat returns npos unless the text is one of the format, and never counts more characters than there are.",
  "all texts, formats and lists of argument types", "tests read texts that were written by cat, catsep and format", f"{FM}:uncat", f"{FM}:uncatsep", f"{FM}:unformat")
p("C142", "is_aligned is exact",
  "is_aligned(ptr, alignment) is true exactly if the address is a multiple of the alignment, for every power of two.",
  "all addresses and alignments", "addresses are unbounded", f"{MU}:is_aligned")
p("C143", "Seeding, discarding and comparing random generators",
  "After seed(s) the numbers of a generator depend only on s and are those of a generator constructed with s. discard(n) skips exactly n numbers. Seeding from a random device can give every 64-bit state. Equal generators give equal numbers.",
  "all states, seeds, histories and counts", "all states and histories; tests only draw a few numbers", "src/c4/ext/rng/rng.hpp:splitmix", "src/c4/ext/rng/rng.hpp:xorshift", "src/c4/ext/rng/rng.hpp:pcg")
p("C144", "Integers in any base (fast_float)",
  "For every text, base from 2 to 36 and integral type, fast_float's from_chars accepts exactly the texts that begin with a number in the base, a minus sign being allowed for signed types, and stops after its last digit. It stores the value if the type has it, and otherwise reports that it is out of range and stores nothing. Other texts and bases are reported as invalid.",
  "all texts, bases and integral types", "all texts of any length in 35 bases", f"{FA}:parse_int_string", f"{FA}:from_chars")
p("C145", "Conversions chosen by the type",
  "For every integral type, value of it, radix and number of digits, xtoa and to_chars write the text of the value, with its sign and the prefix of the radix, into a buffer that has room for it, and atox and from_chars read the value back. Every address survives being written by xtoa and read by atox.",
  "all integral types, values, radices, numbers of digits and addresses", "all values of all types", f"{CC}:xtoa", f"{CC}:atox")
p("C146", "Formats and decimal points of fast_float",
  "With every chars_format and every decimal point that is no digit, letter or sign, from_chars_advanced reads the longest prefix of the text that is a number in the format, as from_chars reads the same number written with '.' and e. In the scientific format the exponent is required, in the fixed format there is none, in the Fortran format it may be written with d or with a sign only, and in the JSON formats the text is refused unless this prefix is a number of RFC 8259. Other texts are refused, except the words for NaN and infinity if the format allows them.",
  "all texts, formats, decimal points and rounding directions", "all texts and options", f"{FA}:from_chars_advanced", f"{FA}:parse_number_string")
p("C147", "Floating point numbers in texts of wide characters",
  "Whatever the character type (char, wchar_t, char16_t, char32_t), the SIMD instructions in use and the byte order of the machine, fast_float reads a floating point number as it does from the text of char that has the same characters, with any characters that cannot be a part of a number in the places of those that cannot: value, error and position are the same.",
  "all texts of code units, character types, SIMD instructions, byte orders, formats, decimal points and rounding directions", "all texts of 16-bit or 32-bit units",
  f"{FA}:from_chars_advanced", f"{FA}:loop_parse_if_eight_digits", f"{FA}:simd_parse_if_eight_digits_unrolled", f"{FA}:read8_to_u64", f"{FA}:parse_infnan")
p("C148", "Integers in texts of wide characters",
  "Whatever the character type, the SIMD instructions in use and the byte order of the machine, fast_float reads an integer in any base as it does from the text of char that has the same characters, with any characters that cannot be a part of a number in the places of those that cannot: value, error and position are the same.",
  "all texts of code units, character types, SIMD instructions, byte orders, integral types and bases", "all texts of 16-bit or 32-bit units",
  f"{FA}:parse_int_string", f"{FA}:ch_to_digit")
p("C149", "Big numbers keep within their memory and report what does not fit",
  "Whatever big number of fast_float (one that is within its memory of 4000 bits, in whole limbs), multiplying it by a limb, a big number, a power of five, two or ten, and adding a limb, never writes beyond the memory; the operation returns true exactly if the exact result fits, and then the number has that value; only zero is refused too, by a multiplication with 2^n or 10^n for n from 4032 on.",
  "all big numbers, limbs and exponents", "numbers of thousands of bits, at the limit of the memory",
  f"{FA}:small_mul", f"{FA}:small_add_from", f"{FA}:large_mul", f"{FA}:stackvec", f"{FA}:bigint")
p("C150", "Exceptions while n objects are constructed leave no object behind",
  "If a constructor throws while construct_n, copy_construct_n, fill_construct_n, move_construct_n or make_room work on n elements, the objects constructed before are destroyed and the exception reaches the caller.",
  "all numbers of elements, and all places at which a constructor throws", "exceptions are not thrown in the tests; the number of elements is unbounded",
  f"{CD}:construct_n", f"{CD}:copy_construct_n", f"{CD}:make_room")
p("C151", "The functions on one object construct, copy, move and destroy that object",
  "construct, copy_construct, copy_assign, move_construct, move_assign and destroy of one object do to it what the functions on n objects do for n = 1, and nothing to others; scalars are passed by value, so that filling a range with one of its own elements works.",
  "all objects, places and memories", "all places and all contents of the memory",
  f"{CD}:construct", f"{CD}:copy_construct", f"{CD}:copy_assign", f"{CD}:move_construct", f"{CD}:destroy")
p("C152", "Room can be made anywhere in a copy of an array",
  "make_room with the sizes of both arrays accepts all places from the first to after the last element, if the elements and the room fit in the destination; the elements before and after the place are then copied around the room.",
  "all arrays, sizes, places and rooms", "all combinations of sizes and places",
  f"{CD}:make_room")
p("C153", "Constructing n objects without arguments value-initializes them",
  "construct_n(ptr, n) of a trivial type leaves n value-initialized objects.",
  "all trivial types made of scalars, all n", "all types",
  f"{CD}:construct_n")
p("C154", "Allocators construct objects as the standard's polymorphic allocator does",
  "construct and construct_n of an allocator pass the arguments to the constructor of types that do not use allocators; to the others they pass the memory resource too, as first argument after std::allocator_arg if the type can be constructed so, and otherwise as last one.",
  "all types, arguments and resources", "all types",
  f"{AL}:_AllocatorUtil::construct", f"{AL}:has_alloc_arg", f"{AL}:has_alloc")
p("C155", "The assertions of spans accept exactly the arguments in range",
  "With assertions on, operator[], subspan, range, first, last, resize, rtrim and ltrim of spans of any index type accept their arguments exactly if they are in range: a selection lies in the span, a new size is not negative and within the capacity, and not more elements are trimmed than there are.",
  "all index types, sizes, capacities and arguments", "the tests run few calls, with unsigned indices",
  f"{SP}:span_crtp::subspan", f"{SP}:span_crtp::range", f"{SP}:span::rtrim", f"{SP}:span::resize")
p("C156", "Conversions between the classes of spans lose nothing but the capacity and the origin",
  "A spanrs or spanrsl converted to span, or a spanrsl converted to spanrs, shows the same elements, and any call on it gives the conversion of what the call gives on the original; spans constructed or assigned from a pointer and sizes keep to this memory, and original() is the whole of it.",
  "all spans, index widths, calls and arguments", "all calls with all arguments",
  f"{SP}:spanrsl::operator spanrs", f"{SP}:spanrs::operator span", f"{SP}:spanrsl::assign")
p("C157", "Floating point numbers are read alike on 32-bit platforms",
  "Where fast_float works with limbs of 32 bits, from_chars gives, for every text, the same rest of the text, error and bits as where it works with limbs of 64 bits, whatever the rounding directions are.",
  "all texts of bytes, float and double, all rounding directions", "the code for 32-bit limbs is compiled only on such platforms, and reached only by long or difficult texts",
  f"{FA}:from_chars_advanced", f"{FA}:parse_mantissa", f"{FA}:bigint", f"{FA}:uint64_hi64")
p("C158", "Big number arithmetic is exact with limbs of 32 bits",
  "With limbs of 32 bits, the big numbers of fast_float hold exactly the sum, the product with a limb, a big number, a power of five, two or ten, and the digits of a text, and report a result exactly if it does not fit in 4000 bits (and zero times 2^n or 10^n for n from 4032 on), without writing beyond the memory; they are compared by value, and their bit length and highest 64 bits are exact.",
  "all numbers and operands", "carries over many limbs are rare, and the code is compiled only on 32-bit platforms",
  f"{FA}:small_mul", f"{FA}:small_add_from", f"{FA}:large_add_from", f"{FA}:long_mul", f"{FA}:bigint", f"{FA}:uint32_hi64")
p("C159", "The assertions of the functions of views refuse exactly the calls that leave the view",
  "In builds with assertions, sub, range, first, last, left_of, right_of, offs, reverse_sub, reverse_range and erase of a view accept exactly the calls whose positions lie in the view and are in order, and a call that is accepted selects exactly the elements that its positions name.",
  "all views, and all positions and lengths including npos", "the accepted calls are given by conditions on sums of unsigned numbers, which are wrong only at the ends of the ranges",
  f"{SS}:sub", f"{SS}:range", f"{SS}:offs", f"{SS}:right_of", f"{SS}:erase", f"{SS}:reverse_sub")
p("C160", "Readers of numbers fail no assertion",
  "In builds with assertions, atoi, atou, atof, atod, their _first forms, overflows and the readers of digits accept every text, and give the result of a build without assertions.",
  "all texts, all integer types, float and double", "assertions are conditions on texts that nobody thought of",
  f"{CC}:atoi", f"{CC}:atou", f"{CC}:atof", f"{CC}:scan_rhex", f"{CC}:overflows", f"{CC}:read_dec")
p("C161", "The search for the first number in a text fails no assertion",
  "In builds with assertions, first_non_empty_span, first_uint_span, first_int_span and first_real_span fail no assertion, whatever the text is, and return the range of the number that the text begins with after blanks.",
  "all texts", "the searches advance an index in nested loops, and ask for subranges at every exit",
  f"{SS}:first_non_empty_span", f"{SS}:first_uint_span", f"{SS}:first_int_span", f"{SS}:first_real_span")
p("C162", "Writers of integers fail no assertion",
  "In builds with assertions, the writers of integers accept every value from 0 on (itoa: every value), every number of digits to pad to and every buffer, and give the result of a build without assertions; they refuse a radix other than 2, 8, 10 and 16, and negative values where there is no sign. The writers that are given the number of digits accept exactly the number of digits of the value.",
  "all values of all integer types, all radices, numbers of digits and buffers", "the assertions in and after the loops compare the number of digits left with the number that other code counted",
  f"{CC}:write_dec", f"{CC}:write_dec_unchecked", f"{CC}:write_hex_unchecked", f"{CC}:write_num_digits", f"{CC}:itoa", f"{CC}:utoa", f"{CC}:detail::_itoa2buf")
p("C163", "The base64 assertions fail exactly for texts that are not base64",
  "In builds with assertions, base64_encode accepts all bytes and buffers, and base64_decode fails an assertion exactly when the text is not a well formed base64 encoding.",
  "all byte sequences, texts and buffers", "the assertions about padding look at two characters of the last group of four, and texts that mix padding and letters are countless",
  f"{B64}:base64_encode", f"{B64}:base64_decode")
p("C164", "The code point assertions fail exactly for texts that are not code points",
  "In builds with assertions, decode_code_point accepts exactly the texts of one to eight hexadecimal digits, with room for four bytes, and then does what it does without assertions.",
  "all texts, numbers and buffers", "the assertions look at prefixes and lengths of the text, and tests only give the usual spellings",
  "src/c4/utf.cpp:decode_code_point")
p("C165", "Searching, trimming, splitting, popping and replacing fail no assertion",
  "In builds with assertions, finding, counting, selecting, trimming, stripping, delimited ranges, splitting, popping, path parts and replacing accept every text and every start within it, and give the result of a build without assertions.",
  "all texts, characters, patterns and start positions", "each function hands positions that it computed to functions that assert them; the positions at the ends of the text are the ones that fail",
  f"{SS}:find", f"{SS}:count", f"{SS}:select", f"{SS}:first_of_any", f"{SS}:trim", f"{SS}:stripl", f"{SS}:pair_range", f"{SS}:pair_range_esc", f"{SS}:pair_range_nested", f"{SS}:unquoted",
  f"{SS}:split", f"{SS}:pop_left", f"{SS}:pop_right", f"{SS}:gpop_left", f"{SS}:gpop_right", f"{SS}:basename", f"{SS}:dirname", f"{SS}:replace", f"{SS}:replace_all")
p("C166", "Bitmasks and enum names with assertions",
  "In builds with assertions, with class and prefix offsets shorter than all names, reading a bitmask has a defined result for every text, and, like writing one and searching a name, gives the result of a build without assertions.",
  "all tables, texts, values and buffers", "the assertions depend on which characters each item of the list has, and the reading goes on with the state of the item before",
  f"{BM}:str2bm", f"{BM}:bm2str", f"{EN}:cmp", f"{EN}:name_offs")
p("C167", "Linear memory resource and small allocator with assertions",
  "In builds with assertions, after any history of calls on live blocks, the linear resource and the small allocator allocate, reallocate, release and report what is left as in a build without assertions, for alignments that are no less than that of the type.",
  "all histories of calls, sizes and alignments", "the counters that are asserted depend on the whole history of calls",
  f"{MRC}:do_allocate", f"{MRC}:do_reallocate", f"{MR}:slack", f"{AL}:allocate", f"{AL}:deallocate", f"{AL}:reallocate")
p("C168", "Replaceable allocation functions",
  "aalloc, afree and arealloc work on the functions set last with set_aalloc, set_afree and set_arealloc: after any history, every block can be read, reallocated keeping its contents, and freed, and goes back, once, to the heap that handed it out. The default arealloc works with any aalloc and afree. Calls through null functions are reported.",
  "all histories of setting functions, allocating, storing, reallocating and freeing, all heaps, sizes and contents", "needs heaps that check what they are given, and every order of setting functions and of calls",
  f"{MRC}:aalloc", f"{MRC}:afree", f"{MRC}:arealloc", f"{MRC}:arealloc_impl", f"{MRC}:set_aalloc", f"{MRC}:set_afree", f"{MRC}:set_arealloc", f"{MR}:MemoryResourceMalloc")
p("C169", "What failed checks report",
  "A check that holds does nothing. One that fails reports 'check failed: ' and the condition as it is spelled and, for the variants with a message, the message with its arguments on the next line; before that there is a breakpoint exactly if the flag for this is set, breakpoints are compiled in and a debugger is attached. Assertions are checks if they are enabled and do nothing otherwise.",
  "all conditions, messages, arguments, flags and callbacks", "tests count failed checks and do not look at the text; conditions with % do not occur in them",
  "src/c4/error.hpp:C4_CHECK", "src/c4/error.hpp:C4_CHECK_MSG", "src/c4/error.hpp:C4_ERROR", "src/c4/error.hpp:C4_ASSERT")
p("C170", "Messages of the library's own checks",
  "The messages of failing allocations, reallocations, size conversions, searches for enum symbols, and of reading and writing bitmasks show the values they speak of: sizes, alignments, names, characters.",
  "all values", "the messages are not compared in tests, and some need a system without memory",
  f"{MR}:allocate", f"{MRC}:aalloc_impl", "src/c4/szconv.hpp:szconv", f"{EN}:get", f"{BM}:str2bm_read_one")
p("C171", "Converting text between views of the same memory",
  "Writing a view to a buffer, reading a view into a writable view and reading the first word of a view into a writable view copy the text, cut at the end of the destination, and change nothing else in the memory, if source and destination have no character in common; with assertions these conversions stop exactly if they have one in common.",
  "all memories and all pairs of views of them", "tests convert between separate buffers",
  f"{CC}:to_chars", f"{CC}:from_chars", f"{CC}:from_chars_first", f"{SS}:overlaps")
p("C172", "Reading a view of a container into the container",
  "from_chars of a view of a std::string or std::vector<char> to that same container is either stopped by an assertion or gives the container the text of the view.",
  "all containers, capacities and views of them", "tests read into containers from other texts",
  "src/c4/std/string.hpp:from_chars", "src/c4/std/vector.hpp:from_chars")
p("C173", "Appending views of a container to it",
  "catrs_append of texts among which are views of the container itself appends the texts as they were before the call, and returns the part appended.",
  "all containers, capacities, policies of growth and sequences of arguments", "tests append other texts",
  f"{FM}:catrs_append")
p("C174", "Overwriting a container with views of itself",
  "catrs with views of the container among the arguments is either stopped by an assertion or gives the container the texts as they were before the call.",
  "all containers, capacities and views of them", "tests use arguments from elsewhere",
  f"{FM}:catrs")
p("C175", "Assertions for making and removing room, and for copying objects",
  "With assertions, the functions that make room for or remove elements of a buffer, or copy or move several objects, stop exactly at those calls whose sizes and positions make no sense (negative, beyond the elements, or more than the buffer takes) or whose ranges have an object in common, and do otherwise what they do without assertions.",
  "all integer types of sizes, all sizes, positions and contents", "tests are built without assertions or only make correct calls",
  f"{CD}:make_room", f"{CD}:destroy_room", f"{CD}:copy_construct_n", f"{CD}:move_construct_n")
p("C176", "Assertions of the memory helpers",
  "With assertions, repeating a pattern stops exactly when pattern and destination share a byte and fills the destination otherwise; raw data accepts exactly the alignments that are powers of two; a blob of objects accepts exactly aligned pointers; the lowest and highest bit are found for all numbers but zero, which stops. Without assertions repeating a pattern is undefined exactly when the pattern overlaps its first copy.",
  "all memories, offsets, pattern sizes and counts; all alignments, pointers, widths and numbers", "tests only make correct calls, and cannot observe undefined behaviour",
  f"{MU}:mem_repeat", f"{MU}:lsb", f"{MU}:msb", f"{FM}:raw", "src/c4/blob.hpp:blob_")
p("C177", "Copies of small allocators",
  "A copy of a SmallAllocator is equal to the original and can release the blocks of the original; copies hand out memory apart from that of the original, also after assignments; an allocator made from one for another type begins empty.",
  "all states of the allocators, all numbers of objects", "a wrong release or overlap shows only when the memory is used again",
  f"{AL}:SmallAllocator")
p("C178", "The self test of base64 finds every error in the tables",
  "base64_test_tables() succeeds if and only if the two tables are inverse to one another, reports an error otherwise, and reads nothing outside of them; the tables of the library pass it.",
  "all tables of 64 characters and 128 entries, both kinds of char", "a test can only run it on the tables there are",
  "src/c4/base64.cpp:base64_test_tables")
p("C179", "Appending separated or formatted views of a container to it",
  "catseprs_append and formatrs_append with views of the container as separator, format text or arguments append the separated or formatted texts as they were before the call, and return the part appended.",
  "all containers, capacities, policies of growth, separators, format texts and sequences of arguments", "which block is read after a reallocation depends on capacity and allocator; undefined reads often give the expected text",
  "src/c4/format.hpp:catseprs_append, formatrs_append, catsep, format; src/c4/std/string.hpp:to_substr")
p("C180", "Overwriting a container with separated or formatted views of itself",
  "catseprs and formatrs with views of the container as separator, format text or arguments are either stopped by an assertion or give the container the separated or formatted texts as they were before the call.",
  "all containers, capacities, separators, format texts and sequences of arguments", "whether a view is overwritten before it is read depends on the lengths of all texts before it",
  "src/c4/format.hpp:catseprs, formatrs, catsep, format")
p("C181", "Assigning new containers made from views of the containers assigned",
  "In any sequence of statements x = catrs<C>(...), x = catseprs<C>(...), x = formatrs<C>(...) whose arguments, separators and format texts are texts or views of the containers, x itself included, each statement gives x the joined, separated or formatted texts as they were before it and leaves the other containers as they are.",
  "all programs of such statements, containers, capacities, policies of growth, views inside of their containers, with and without assertions", "the functions that overwrite a container fail for views of it, depending on all lengths and capacities; tests of the functions that return a new one use literals",
  "src/c4/format.hpp:catrs, catseprs, formatrs (returning a container)")
p("C182", "Over a whole period every number is returned equally often",
  "A splitmix of any seed returns, in its first 2^64 calls, every 32-bit number exactly 2^32 times and is then in the state it began with; an xorshift of any seed other than 0 does so in 2^64 - 1 calls, with every number other than 0 returned 2^32 times and 0 once less.",
  "all seeds, all 32-bit numbers, the whole period", "2^64 calls cannot be run; a statistical test of a sample cannot tell an exactly even distribution from a slightly uneven one",
  "src/c4/ext/rng/rng.hpp:splitmix::operator(), xorshift::operator()")

if __name__ == "__main__":
    out = os.path.join(os.path.dirname(os.path.abspath(__file__)), "..", "properties.jsonl")
    with open(out, "w") as f:
        for x in P: f.write(json.dumps(x) + "\n")
    print(len(P))
