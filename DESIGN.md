# c4core: formal model and proofs (Lean 4)

The code under study is `/repo` (biojppm/c4core). This document says what is modelled, how each
property of `properties.jsonl` is proved, and what is trusted.

## 1. Trusted base

* Lean 4.33.0's kernel, and the axioms `propext`, `Classical.choice`, `Quot.sound` (the only ones any
  theorem here depends on; each Props file ends in `#print axioms`-able theorems, no axiom is declared
  in this project, and no `sorry`, `native_decide`, `bv_decide`, `implemented_by` or `unsafe` is used).
* The reading of the C++ sources done by hand: each Lean definition cites the file and lines it models.
* The C++ memory and arithmetic semantics encoded in `Verif/Basic.lean` (see section 2).

## 2. Modelling conventions

* A `char` is a `Nat` byte / `UInt8`-like value; see `Verif/Basic.lean`.
* A read-only string view is the list of its characters. Every read `s[i]` made by the code goes through
  `rd`, which yields the distinguished outcome `ub` if `i` is out of range. A writable view is the list of
  bytes of the buffer; every write goes through `wr` / `memcpy`-like helpers which yield `ub` outside.
  Hence "the result is `ok ..`" includes memory safety.
* Views where the *address* matters (is_sub, overlaps, left_of(sub), spans, allocators) are modelled with
  explicit natural number addresses and lengths.
* `size_t` values are natural numbers. Wrap-around is modelled where the code relies on it or where it is
  observable (e.g. the `(unsigned)` truncation in padded itoa/utoa); the implicit assumption elsewhere is
  that lengths of real strings are below 2^64 - 2^32. `npos` is `none` unless the code computes with it.
* `C4_ASSERT` is a no-op (release build): preconditions it states appear as hypotheses, never as
  something the model enforces. `C4_CHECK`/`C4_ERROR` produce the distinguished outcome `abort`.
* Integer types are given by a width `w` (8,16,32,64) and a signedness. Arithmetic is modulo 2^w; signed
  overflow in the promoted type is tracked by an explicit flag so "no signed overflow" is a theorem.
* Intrinsics (`__builtin_clz` etc.) are replaced by the portable fallback in the same file, except for `lsb` and `msb`, modelled both ways.
* Builds with assertions are modelled apart from builds without (`Debug/`, and `SpanAssert`): an assertion that fails gives `abort`.
* Which digits `std::to_chars` and `snprintf` give for a number is a parameter of the model; where they are put is modelled.
* Not modelled: iostreams, `std/tuple.hpp` (its code is disabled by the `#undef` at the top), the replacement of
  `new` and `delete` (memory_resource.cpp:287-337, does not compile with the macro defined, see section 4),
  the breakpoint instruction, compile-time-only traits, threads (the library
  has no shared state besides three function pointers, the error callback and the thread_local memory
  resource).

Seeded bugs (`seeded/LOG.jsonl`, run with `tools/seed.py`): the field `evidence` says what an attempt shows. `property`: a property
theorem fails. `example`: a concrete case beside one fails. `helper`: only lemmas fail, so a proof broke, but whether the property
theorem is false of the edited model was not established by the run. `invalid`: the edit does not compile. `survived`: see its note.
Attempts with `helper` are not evidence that the theorem is strong enough, unless a `witness` is recorded: a concrete instance of the
statement that holds of the model and fails of the edited one (`tools/witness.py`).  The tool evaluates the instance on both models, but
that it is an instance was judged by hand; some are equations that are stronger than the theorem at this point.  Witnesses for
`fast_float` evaluate the slow path at inputs that the fast path does not take, or an executable floating point unit of which the
rounding property is not checked.  Attempts of which only lemmas failed and without a witness have a note.

Edits made by a program (`seeded/auto.jsonl`, made with `tools/mutate.py`): one operator or number of a definition of the model at a
time, 1372 edits of an earlier state of the model, each built up to the first error.  `killed`: some proof or example fails, `invalid`:
the edited definition does not compile, `survived`: everything builds.  A killed edit shows that some proof depends on the place, which
is less than that a property is false of the edited model.  The survivors were looked at by hand; each has a note that says why its
behaviour is the same or cannot be observed, or which theorem was added because of it.

## 3. Plan per property

Legend: M = model module, S = specification used in the statement, T = proof technique.

| Id | What is modelled and how it is proved |
|---|---|
| C01 | M `Charconv/Write`: the two-digit loop writing backwards through the `digits0099` table. S `Nat.digits`-independent numeral spec: the unique digit string without leading zero that evaluates to v. T induction on v (v/100). |
| C02 | Same with the do-while loops for 16/8/2. |
| C03 | M `Charconv/Digits`: the four comparison trees, msb based counts, the octal loop. S `b^(n-1) <= v < b^n`. T case analysis / induction. |
| C04 | From C01-C03: the guarded write is skipped. Proved for all writers. |
| C05 | False for the code ('-' is stored before the size check). Refutation with witness; partial theorem: at most the first byte changes and only for negative values, the size is right. |
| C06 | M `write_num_digits` with memmove/memset on the list buffer. T list lemmas. |
| C07, C08 | M `utoa`,`itoa` incl. tables for min values and `(unsigned)` truncation. S sign ++ prefix ++ padding ++ numeral. |
| C09 | False (truncation to 32 bit). Refutation. |
| C10 | M `Charconv/Read`: left fold loops in wrap arithmetic. S positional value modulo 2^w. T induction on the string. |
| C11, C12 | M `atou`,`atoi`. S inductive description of the language and denotation. |
| C13 | Composition of C07/C08 with C11/C12. |
| C14 | M read loops in Int with overflow flag. Refuted for the minimum value; partial theorem for all others, and the exact set of texts that overflow. |
| C15, C16 | M `overflows` with literal limit tables. S denotation > max / < min. Out-of-bounds read for "-" refuted separately. T lexicographic comparison of equal-length digit strings = numeric comparison. |
| C17 | Composition. |
| C18, C19 | M span scanner + converter. C19 is false ('+' accepted by the span scanner only): refutation, partial without '+'. |
| C20, C21 | M direct; C21 is false: refutation + partial for strings without leading whitespace. |
| C22 | M scan_rhex over exact rationals, and with every operation rounded as by an `Fpu`. False: refutation; partial for decimal-digit mantissas without exponent, in floating point if the digits fit in the precision; with an exponent `e`, exactly 8^`e` times the value. |
| C23, C25-C27 | M `MemUtil`. T induction / bit lemmas / omega. |
| C24 | M `IPow`: products in the promoted type with signed overflow. S the integer power, congruence modulo 2^width. T induction on the exponent; refutation + partial. |
| C28-C48 | M `Substr/*`: loops over index with checked reads. S existential/extremal specifications on lists. T induction on the remaining length. C30 (termination on empty pattern), C46 (overlaps of an empty view) contain refuted parts. |
| C49-C52 | M `Format`: arguments are abstract "printable" values with a bounded-writer contract; the contract is proved for ints, strings, chars, bools. T induction on the argument list. |
| C53 | Composition of C49/C51 with C18. |
| C54 | False (out of bounds fill when width > buffer > size): refutation, partial for width <= buf.len or size >= min. |
| C55 | M std::align on natural-number addresses. |
| C56-C59 | M `Base64` with the two literal tables. S RFC 4648 via bit strings. C59 false: refutation + partial. |
| C86 | S `DecodesTo`: the letters' bits are the bytes' bits plus less than eight more. |
| C60 | M `Utf`. S the UTF-8 table of RFC 3629 and decoding. |
| C61-C63 | M `Span` as records (ptr,size,capacity,offset). T invariant over operation sequences. |
| C64-C66 | M `Dump`. C65, C66 are false: refutation + partial theorems. |
| C67-C72, C88-C93 | M `MemRes`: resources and allocators as state records over natural-number addresses. T invariants over histories (inductive predicates collecting the live blocks). C68 (linear), C69, C71, C72, C88-C93 are false: refutation + partial. |
| C73-C76, C94-C97 | M `Enum` (enum.hpp and bitmask.hpp): a table of values and names, values as bit patterns. S spellings of a symbol; symbols covering a mask (sublist, disjoint, OR). All but C75 are false: refutation + partial. |
| C77-C80, C100, C104, C105 | M `Small` (hash.hpp, szconv.hpp, types.hpp, char_traits.hpp). S published FNV-1a as a fold, least sizes, list of 0..N-1. |
| C83, C101-C103 | M `Small` (rng.hpp). S 32-bit rotation, period as `iterate n = start iff 2^64 divides n`, for xorshift `iff 2^64 - 1 divides n` by its characteristic polynomial, the powers of which are evaluated by the kernel. |
| C81, C99, C106, C107 | M `CtorDtor` (ctor_dtor.hpp): slots that are raw, hold an object or one moved from, and a count of objects whose memory was reused. S lists of elements around a gap. |
| C82, C98 | M `InplaceFunction` (ext/sg14/inplace_function.h): programs over variables, vtable pointers, storages, targets with an identity, exceptions. S what each step is meant to leave in the variables. |
| C108-C110 | M `FastFloat/Compute`, `FastFloat/Table` (extracted by tools/fftable.py). S `Spec/Ieee`: value of a bit pattern, nearest with ties to even. T for each row of the table a pair of neighbouring fractions (`FFCert`, found by tools/ffcert.py, checked by the kernel) shows that no 64-bit multiple of the power of five comes close enough to a rounding boundary; ties by divisibility. |
| C111, C112 | M `FastFloat/Parse`, `FastFloat/Bigint`, `FastFloat/DigitComp`. S `Spec/Decimal`, `Spec/Limbs`. T a word as a list of bytes, carries by induction; every operation on a big number returns one with the exact value. |
| C113-C120 | M `FastFloat/FromChars`, `Charconv/Atof`. S `Spec/Decimal`, `Spec/FloatText`, `Spec/Ieee`, `Spec/Fpu` (a floating point unit rounds the exact result in its direction). T the truncated significand and its successor give the same float or `digit_comp` compares exactly; the first 769 (114) digits and a sticky digit are on the same side of every midpoint. |
| C121-C124 | M `Charconv/Rtoa`. S `Spec/RealText` (a writer whose needed size is an estimate), `Spec/RealDigits` (P significant digits). T the format string is read back as `printf` does; resizing until the estimate fits; a number within 2^-54 of a double relative to its size rounds to it. |
| C125-C127 | M `Error`: the settings, `vsnprintf` into an uninitialised array, callbacks as functions on the settings; objects with their saved settings; `strstr` and `atoi` on the status file. S `Spec/Error`. T case distinction on the bits of the flags; induction over the statements. |
| C128-C130 | M `StdCompat`. S lexicographic order, bytes of the memory. T from C28 and C57. |
| C131 | M `Charconv/ScanOne`: format assembled by `scan_one`, `sscanf` with width (conversion item by an automaton of the strtod syntax). S the text handed to strtod depends on the view only; it is the longest beginning of a number of the strtod grammar (`Spec/StrtodText`). T induction on the text; the language of every state of the automaton. |
| C132 | M `Substr/Views`: views from pointers and arrays, comparisons with literals and characters. S the characters before the first zero; lexicographic order. T induction; refutation + partial. |
| C133 | M `FormatSpec`: the wrappers of `hex`, `oct`, `bin`, `integral`, `zpad`. S numeral of the value with prefix and width. T by C07/C08, read back by C13; refutation + partial. |
| C134 | M `Resources`: `aalloc_impl` over the answer of `posix_memalign`. S powers of two, divisibility. T binary induction for `n & (n-1)`. |
| C135 | M `Resources`: tree of malloc, derived and counting resources with the calls to the system. S blocks by the path of their resource. T equation for each call, induction on histories, counters by C70. |
| C136 | M `Resources`: resource of an allocator at a time. S histories with changes of the global resource. T reduction to C135; refutation + partial. |
| C137 | M `Resources`: sums and differences of counts. S counts of the calls alone. T simulation between two runs; refutation + partial. |
| C138, C139 | M `SpanSizes`: sizes with the conversion to the index type, accesses with assertions. S elements of the view of memory. C138: refutation + partial. |
| C140 | M `TightPair`: which part of the object each accessor and initializer refers to, for the six layouts. S a pair of values. Refutation + partial. |
| C141 | S `NumbersAt`, `SeparatedAt`, `MarkedAt`: the text is cut into number texts (`FirstNumber` of C18). Both ways for every text, by C18. Refutation + partial for `unformat`. |
| C142 | M `isAligned` by bit operations. S divisibility. |
| C143 | M `RngSeed` (rng.hpp), any history of calls as a list. |
| C144 | M `FF.intFromChars`, tables as in the source. S `digit36`, `Digits36`, `NoDigit`, exact value. Refutation + partial. |
| C145 | M `xtoa` etc. choose by the type. S `intText`. |
| C146 | M `fromCharsAdvanced` with `chars_format` and the decimal point. S `NumFormat`, `Num.WF`, `Num.Json`, `LongestIn`. |
| C147 | M `Cfg.fromCharsAdvanced` (character type, SIMD, byte order). S `StandsFor`, `Other`, and the narrow `fromCharsAdvanced` of C146. |
| C148 | M `Cfg.intFromChars`. S `Other`, `digit36`, and the narrow `intFromChars` of C144. |
| C149 | M the operations of `bigint` (C112). S `Limbs`, `Norm`, `limbsVal`, and 2^3968. |
| C150 | M `forThrow`, `noexcept`, `constructNT`, ... (`CtorDtor1`): `throws i` says whether the constructor of element `i` throws. S `FirstThrow`. |
| C151 | M `construct1`, `copyConstruct1`, ..., `scalarFillN` (`CtorDtor1`). S the memory, cell by cell. |
| C152 | M `makeRoomToSized` (`CtorDtor1`). S the list with a gap. |
| C153 | M `constructBytes`, `valueInitBytes` (`CtorDtor1`): a type is a list of scalars; null pointers to data members have all bits set (Itanium ABI). S equality of the bytes. |
| C154 | M `allocConstruct` (`AllocConstruct`): the enabled overloads; a type is what its traits say. S `usesAllocatorConstruct`, the rules of `std::pmr::polymorphic_allocator`. |
| C155 | M `SpanCall.asserts` (`SpanAssert`), for signed and unsigned index types. S `inRange`, over the integers. |
| C156 | M `toSpan`, `toRS`, constructors (`SpanAssert`) and the functions of C61. S the diagram commutes; `SpanSteps`. |
| C157 | M `FF.L32.fromChars` (`Bigint32`, `DigitComp32`): the code for 32-bit limbs; the parts that do not depend on the limbs are shared with C113-C119. S `FF.fromChars`, of which C114 says what it is. |
| C158 | M the operations of `bigint` with 32-bit limbs (`Bigint32`). S `Limbs`, `limbsVal` (`Limbs32`), and 2^4000. |
| C159 | M `View.call` (`Debug/Views`): the functions with their assertions. S `Spec/ViewCalls`: which positions a call names, which calls are mistaken. |
| C160 | M the readers with their assertions and those of the functions of views that they call (`Debug/Read`). S `BeginsPlus`, `RhexRefused`, `RealRefused`; the results of the model without assertions (C11, C12, C19, C114). |
| C161 | M the searches with their assertions (`Debug/Spans`). S `TokenAt` (C44-C46). |
| C162 | M the writers with their assertions (`Debug/Write`). S `numeral`, `overwrite`, `isRadix` and the results of the model without assertions (C01-C08). |
| C163 | M base64 with its assertions (`Debug/Base64`). S `AssertedBase64`, `Base64WF`, `base64Text`, `DecodesTo`. |
| C164 | M `decode_code_point` with its assertions (`Debug/Utf`). S `DigitText`, `Utf8`. |
| C165 | M the functions of views with their assertions (`Debug/Search`). S the results of the model without assertions (C24-C40). |
| C166 | M `str2bmD`, `bm2strD`, `findNameLenD` (`Debug/Enum`). S `BlankItem`, and the results of the model without assertions (C73-C76, C96, C97). |
| C167 | M `linDoAllocateD`, `linDoReallocateD`, `linSlackD`, `smallAllocateD`, `smallDeallocateD`, `smallReallocateD` (`Debug/MemRes`). S `LinHist`, `SmallHist`, and the results of the model without assertions (C67, C71, C88, C91). |
| C168 | M `hookAalloc`, `hookAfree`, `hookArealloc`, `hookAreallocImpl`, `hookMalloc*` (`AllocHooks`). S `replay` (what is out after the calls the heaps received), `HookHist` (what the program holds). |
| C169, C170 | M macros of `error.hpp` with formatting by `vsnprintf` (`ErrorMacros`); the messages of the library as formats and arguments. S `Formats`, a grammar of formats and their texts. T `pf_formats`, `formats_pf`; literal texts. |
| C171-C174 | M conversions where source and destination are in one memory, containers with blocks and capacities (`Alias`). S `Shares`, `place`, `text`, `content`, `argsText`. T classification by arithmetic on indices; induction on the arguments for the two passes of `catrs_append`. |
| C175 | M `Debug/CtorDtor`: sizes and positions are integers of any C++ type, sums have the promoted type and may wrap or overflow. S `InType`, `RoomTo`. T case analysis over the assertions. |
| C176 | M `Debug/MemUtil`: pattern and destination in one memory, both builds. S `Spec.repeated`, powers of two, `Nat.testBit`. T reduction to C26, C142 and C23. |
| C177 | M `Small2`. S `Block.Disjoint` of C71. T arithmetic; `C71_exact` by induction over histories with any order of release, `C98_exact` by induction over programs with the class each empty function comes from. |
| C178 | M `Debug/Base64Tables`, with the tables as parameters. S `TableInverse`. T induction over the tables. |
| C179-C180 | M `AliasFormat` on top of `Alias`: the format text is searched where it is, after each argument. S `withSep`, `Pieces` (`Spec/Format` for the texts). T catsep and format with a text elsewhere are cat of the pieces; two passes of any writer. `AliasLong`: the first pass cut at the end of the container (`cutText`), then the second. |
| C181 | M `AliasNew` on top of `AliasFormat`: numbered containers, each with its own block; a new container is filled and then assigned. S `Value`, `Gives`, `Texts` (values only, no memory). T by C174 and C180 for texts elsewhere, then along the program. |
| C182 | M `Small`, `RngSeed` (rng.hpp). S occurrences of a number in the list of the results of a whole period. T the states of a period are all states (C102, C103), the mixing is injective, and 2^32 numbers have 32 given bits. |
| C87 | M `Span`: the assertion as written, with C++ integer promotion; refutation + partial. |
| C84 | M `Charconv/Convert`. Round trip from C13; from_chars_first refuted. |
| C85 | M `Format`. The value is read, the count is refuted. |

Disagreements between documentation/expectation and code that are proved in Lean are collected in section 4
as the work proceeds.

## 4. Findings (properties that are false of the code)

* **C05** (`C05_refuted`): `itoa(buf, v, radix[, num_digits])` stores the '-' of a negative value in
  `buf[0]` before it knows whether the text fits, although the documentation says no write occurs.
* **C09** (`C09_refuted`, `C09_refuted_out_of_bounds`): `num_digits` is truncated to 32 bits, so the size
  returned for `num_digits >= 2^32` is wrong, and for `num_digits` just below 2^32 with a prefix the 32-bit
  size wraps around and the prefix is stored outside an empty buffer.
* **C14** (`C14_refuted`): reading the text of the minimum of `int32_t`/`int64_t` with `atoi` overflows in signed
  arithmetic (the magnitude is accumulated in the signed type).
* **C16**, **C17** (`C16_refuted`, `C17_refuted`): `overflows<T>("-")` for signed `T` reads `str[1]`, one past the
  end, and so does `from_chars` with `overflow_checked`.
* **C19** (`C19_refuted`): the span scanners accept a plus sign, `atoi`/`atou` do not: `atoi_first("+1")` fails.
* **C21** (`C21_refuted`, `C21_refuted_trailing`): `from_chars_first(bool)` converts the whole string instead of the
  trimmed one, so it fails with blanks before or after the first run; the returned count would also miss them.
* **C22** (`C22_refuted_*`): `scan_rhex` gives letter digits the value `c - 'a'` (ten too small), uses the exponent
  as a power of 16 instead of 2, and neither it nor `atof`/`atod` reset the result variable (reading `0x1` into a
  variable holding 5 gives 81); `0x` alone and `0x1p+-2` are accepted. Every
  digit is rounded on its own, so numbers with more digits than the precision are not rounded correctly.
  Since the power of 16 overflows on its own, `0x0p32` is read into a `float` as not-a-number (`C22_refuted_overflow`).
* **C28** (`C28_char_refuted`): `compare(char)` narrows the length difference to `int`, so a view of 2^32+1
  characters starting with the character compares equal to it.
* **C30** (`C30_refuted`): `count(csubstr)` with an empty pattern never terminates.
* **C33** (`C33_refuted`): the assertions of `offs`, `right_of(pos)` and `left_of(pos,true)` admit boundary
  arguments (`left == len-right+1`, `pos == len`) whose result is outside the view (length wraps).
* **C40** (`C40_refuted`): `replace_all(dst, pattern, repl, npos)`: the position `npos` passes the argument assertion,
  but the code then copies `len+1` characters from before the string to before the destination.
* **C46** (`C46_refuted`): `overlaps` is true for an empty view strictly inside another view.
* **C48** (`C48_refuted`): `toupper()`/`tolower()` pass `char` values to `::toupper`/`::tolower` without converting to
  `unsigned char`; with a signed `char` every byte in 128..254 is undefined behaviour.
* **C54** (`C54_refuted`): `fmt::left`/`fmt::right` fill the padding without comparing the width with the buffer: a
  buffer longer than the text and shorter than the width (for `right`: than the padding) is overrun.
* **C59** (`C59_refuted`, `C59_refuted_unsigned`): `base64_valid` accepts `=` at any place (`"===="`), and on platforms where
  `char` is unsigned it reads its 128-entry table out of bounds for bytes from 128 on. `C59_unsigned_exact`: the first other character decides.
* **C63** (`C63_refuted_cpp11`): in C++11 builds `operator==` uses the three-iterator `std::equal`, so `[1] == [1,2]` holds and
  `[1,2] == [1]` reads past the end of the right-hand span.
* **C87** (`C87_refuted`): `subspan(first, num)` asserts `first + num <= size`, which wraps for `size_t` and `uint32_t` indices:
  `subspan(1, SIZE_MAX)` passes the assertions. `C87_exact`: what the assertion admits.
* **C65** (`C65_refuted`, `C65_refuted_empty`): `cat_dump_resume` goes on after an argument that did not fit, so the following
  arguments are sent again by the retry; with an empty buffer string arguments are counted as sent without being sent.
  `C65_history_exact` says what is sent for every history of buffers: what fits the first buffer, and once a later buffer is large enough
  everything from the first argument that did not fit.
* **C66** (`C66_refuted_catsep`, `C66_refuted_format`, `C66_refuted_surplus`): `catsep_dump_resume` and `format_dump_resume` set the buffer
  length to 0 after an argument that did not fit; a string after it then needs 0 <= 0 characters and is counted as sent, so
  both are lost.  With more arguments than marks, a call after completion evaluates `fmt.sub(npos + 2)` beyond the end.
  `C66_catsep_history_exact` and `C66_format_history_exact` say exactly which pieces are lost: those from the first that does not fit the
  first buffer to the last argument that needs no buffer.
* **C68** (`C68_refuted`): `MemoryResourceLinear::do_reallocate` does not copy the contents when a block that is not the last one
  grows.
* **C69** (`C69_refuted_*`): `acquire(sz)` and `release()` call `impl_type::allocate/deallocate`, which dispatch to the virtual
  functions of the object itself: on a constructed `MemoryResourceLinear` `acquire` fails or takes a part of its own buffer
  (which the destructor then hands to the parent), `release` leaks the chunk, and both `acquire`s drop an owned chunk.
* **C71** (`C71_refuted`, `C71_refuted_wrap`): `SmallAllocator` only counts objects, so releasing blocks in an order other than
  last-in first-out makes it hand out memory in use; the count also wraps.
* **C72** (`C72_refuted`): `ScopedMemoryResourceCounts(m)` installs `m` as the global resource when it is destroyed.
* **C88** (`C88_refuted`): `MemoryResourceLinear::do_reallocate` compares `cptr + newsz <= m_mem + m_size`, which wraps for sizes near
  `SIZE_MAX`; the position then moves back over live blocks.
* **C89** (`C89_refuted`): `MemoryResourceCounts::do_reallocate` uncounts the old block before reallocating; an error leaves it uncounted.
* **C135** (`C135_refuted`): the same in a stack of resources: every counting one below the block loses it (`C135_reallocFails`).
* **C90** (`C90_refuted`): `SmallAllocator` ignores the alignment for blocks in its array.
* **C91** (`C91_refuted`, `C91_refuted_single`): `SmallAllocator::reallocate` returns the start of the array whatever block is
  reallocated and does not count the growth (and only compiles for `char`).
* **C92** (`C92_refuted`): `size_for` multiplies without check, so huge counts give small blocks.
* **C93** (`C93_refuted`): an empty block handed out at the end of a full `SmallAllocator` array is released to the memory resource.
* **C73** (`C73_refuted`): `str2e` also tries the names without class or prefix, so a full name can be taken for an earlier symbol.
* **C74** (`C74_refuted`, `C74_refuted_shadow`): `find(s, len)` uses `strncmp(name, s, len)`: every prefix of a name matches, the
  empty string matches the first symbol, and a symbol whose name is a prefix of an earlier one cannot be found.
* **C76** (`C76_refuted`, `C76_refuted_prefix`): `str2bm` rejects names with digits, which `bm2str` writes; prefixes as in C74.
  `C76_exact` and `C76_roundtrip_iff` say for which tables of identifiers and which masks the round trip holds.
* **C94** (`C94_refuted`): `bm2stream` silently drops bits without a symbol, and writes nothing at all if no symbol fits.
* **C95** (`C95_refuted`): `bm2str` takes symbols greedily from the end, so some unions of symbols are reported as errors.
* **C96** (`C96_refuted`): `str2bm("|...")` computes with a null pointer (caught by an assertion in debug builds only).
* **C97** (`C97_refuted`): `str2bm` checks that a letter in a number is an `x`, so `0x1f` is an error although the comment says
  that hexadecimal numbers are accepted.
* **C78** (`C78_refuted`): `szconv` from a signed to a not narrower unsigned type turns negative sizes into huge ones unchecked.
* **C81** (`C81_refuted_make`, `C81_refuted_destroy`): for types that are not trivial and an empty gap, `make_room` constructs each
  element from itself and `destroy_room` moves each element to itself.
* **C99** (`C99_refuted`): `destroy_room` destroys nothing if elements remain; `n` objects stay alive. `C99_exact`: the memory afterwards.
* **C106** (`C106_refuted`, `C106_refuted_alias`): the assertions `dst != src` admit overlapping ranges, which is undefined (`memcpy`) for
  trivial types and repeats elements for others; `copy_construct_n(dst, value, n)` with a value in the range constructs it from itself.
* **C107** (`C107_refuted`): `make_room` with a small gap constructs in the memory of objects that were never destroyed. `C107_exact`: the memory afterwards.
* **C82** (`C82_refuted`, `C82_refuted_swap`): `operator=` destroys the old target and replaces the vtable pointer before it copies or
  moves; if that throws, the destructor destroys a target that does not exist. `swap` has the same fault and leaks its temporary.
* **C98** (`C98_refuted`): an empty function converted to another capacity keeps the empty vtable of its old class, and `operator bool`
  says it is not empty.
* **C83** (`C83_refuted`, `C83_refuted_half`, `C83_refuted_always`: with an odd increment such a state is reached from every state; `C83_reached_exact`, `C83_seeded`: it is reached unless no call changes the state, so for every `pcg(s)` with `s != 0`): `pcg` computes the rotation as a signed value, so half of the states, among them the
  default one, shift by a negative amount.
* **C100** (`C100_refuted`): `hash_bytes("abc")` also hashes the terminator, so it differs from `hash_bytes("abc", 3)`.
* **C101** (`C101_refuted`, `C101_refuted_parity`, `C101_refuted_linear`): `pcg(uint64_t)` sets an even increment: the state keeps its parity, and `pcg(0)`
  gives zero forever.
* **C105** (`C105_refuted`): `char_traits<wchar_t>::num_whitespace_chars` is a size in bytes. `C105_exact`: 7w - 1 for characters of w bytes, right only for w = 1.
* **C114** (`C114_refuted`): exponents are read up to the first prefix that is at least 2^28, so with 2^28 digits after the point
  "0.00...01e2684354560" is read as 1 instead of infinity.
* **C116** (`C116_refuted`): `atof("1.5abc")` succeeds with 1.5, because the pointer returned by fast_float is not compared with the end;
  `atof("+1.5")` fails, because fast_float refuses a plus sign, although `is_real` and `first_real_span` admit it.
* **C117** (`C117_refuted`): `atof_first("+1.5")` is npos for the same reason; `atof_first("0b11")` returns 4 and assigns 0.
* **C120** (`C120_double_refuted`): `max_mantissa` for `double` divides 2^52, which the comment takes for 1 << 53, and the row of 5^14 is missing,
  so all rows from 14 on are those of the next power. All bounds are too small only, so results are right.
* **C121** (`C121_refuted`): with `std::to_chars`, a buffer that is too small gives 17 (9) or its size plus one, not the size needed; in hexadecimal
  format a buffer of less than 2 characters gives `to_chars` a range whose end is before its begin; the minus sign comes after `0x`. With `snprintf` a
  buffer of exactly the size of the text is refused, a precision below -1 gives the format `%.-2lf`, and a text of 2^31 characters returns 0.
* **C122** (`C122_refuted`): `catrs` of a hexadecimal real into an empty container calls `to_chars` with such a range.
* **C123** (`C123_refuted`): `fmt::left(fmt::real(1.5), 6)` with `snprintf` gives `1.5`, a zero character and two blanks. `C123_left_exact`: the zero is always in the place of the first padding character.
* **C124** (`C124_refuted`, `C124_hex_refuted`): `dtoa(16777217.0)` with `snprintf` is `1.67772e+07`; hexadecimal texts are not read back (-1.5: refused, 2: 16).
* **C125** (`C125_refuted`): with ON_ERROR_THROW alone, the array the exception's text is taken from was never written. A format error in the message does
  the same. (Besides, C4_CHECK_MSG makes the text of the condition part of the format string, and `EnumSymbols::get(s, len)` passes a `size_t` for `%.*s`.)
* **C126** (`C126_refuted`): objects destroyed in the order of their construction leave the settings of the first in force; a copy restores as well.
* **C127** (`C127_refuted`): the answer is cached; a program named `TracerPid:1` counts as debugged; 1024 characters without `TracerPid:` are searched beyond the array.
* **C128** (`C128_refuted`): with MSVC `enum ` and `union ` are not removed. `C128_keyword_exact`: whatever the name.
* **C129** (`C129_standard_refuted`): with signed char, `csubstr("é") < std::string("z")`, but `std::string("z") < std::string("é")`. `C129_standard_exact`: the order is the opposite if and only if one of the first characters that differ is below 128 and the other is not.
* `blob.hpp:42-43`: the converting assignment operators of `cblob` do not return anything (modelled as undefined, `Blob.assignConvert`).
* **C24** (`C24_ipow_refuted`): `ipow` multiplies unsigned 16-bit integers as `int`, which overflows from 32769^2 on; the smallest negative
  exponent cannot be negated: the result is 1 for 8 and 16 bit exponents, and undefined for the others.
* **C131** (`C131_refuted`): the `sscanf` variant of `atof`/`atod` passes the pointer of the view to `sscanf`, which needs a zero
  terminated string; the assertion on leading blanks does not know vertical tab and the like, which `sscanf` skips without counting
  them in the width; the format is cut for views of 10^10 characters or more.  Text after the number is not looked at
  (`C131_refuted_trailing`): "12abc" is read as 12.
* **C132** (`C132_array_refuted`, `C132_char_refuted`): a view of `char buf[8]` holding a shorter string has the characters after the zero
  too; comparing a view of 2^32+1 characters with its first one gives equality (the length difference is truncated to `int`).
* **C133** (`C133_pointers_refuted`): addresses from 2^63 on are written as negative numbers ("-0x1000" for the last page).  Not in
  the model: `hex(true)` makes the radix `bool(16)`, which is 1. `C133_pointers_exact`: the texts of all these addresses.
* **C134** (`C134_refuted`): `MemoryResource::allocate(0)` is an error if `posix_memalign` answers null for no bytes, which it may.  The
  message for lack of memory prints the size in place of the alignment. `C134_exact`: what a request through any chain of resources gives.
* **C136** (`C136_refuted`): `Allocator<T>` with the global resource (the default) returns memory to the resource that is global when it is
  released; `select_on_container_copy_construct` (misspelt: containers look for `..._construction`, and for
  `propagate_on_container_move_assignment`) copies, it does not return a default constructed allocator as its comment says. `C136_select`: when the two are the same.
* **C137** (`C137_difference_refuted`): `max` in a difference of counts is not the maximum of the calls between.
* **C138** (`C138_refuted`): `span<int, uint8_t>` of 64 elements has `byte_size()` 0, and assigned an array of 256 elements it is empty.
  Besides (not in the model, they fail to compile when used): `rbegin() const`, `crbegin()` and the non-const `rend()` convert between
  reverse iterators of `T*` and `T const*` in the wrong direction.
* **C140** (`C140_refuted`): the default constructor of `tight_pair<T, T>` does not initialize the second.  `tight_pair<int, int>` does not
  compile (the pair derives from the type); two empty classes of which one derives from the other are an ambiguous base.
* **C141** (`C141_refuted`): `unformat` skips as many characters as the format has before a mark without comparing them, and adds the length
  of the end of the format to the count even if the text has ended: `unformat("7", "{} apples", v)` returns 8. `C141_unformat_exact`: exactly which texts it accepts.
* **C143** (rng.hpp:43, 96, 145, 151-155): `pcg::seed(s)` keeps the increment, `pcg(s)` uses the increment `s << 1`, so both give
  different numbers; `uint64_t(rd()) << 31 | rd()` never sets the highest bit and merges one bit of both results.
* **C144** (fast_float_all.h:1388-1397): the overflow test only compares the wrapped result with the smallest number of as many digits, so
  "28446744073709551616" is read as 10000000000000000000 without an error.
* C146: `chars_format::hex` is accepted by `fast_float::from_chars`, but hexadecimal numbers are not read: "1f" is read as the decimal number 1.
* C147: `fastfloat_strncasecmp` converts wide characters to `char`: u"\u016Ea\u016E" is read as NaN.
* C148: `ch_to_digit` converts wide characters to `unsigned char`: u"\u0131" is read as the integer 1.
* If a constructor throws in `construct_n`, `copy_construct_n` or `make_room`, the objects that were constructed before are not
  destroyed (C150). The overloads without arguments and those that move are `noexcept` and end the program.
* `make_room(dst, dst_size, src, n, room, pos)` asserts `pos < n` (unless there are no elements): room after the last element cannot be made (C152).
* `construct_n(ptr, n)` of a trivial type clears the memory, which is not the value of a null pointer to a data member (C153).
* The `construct` of the allocators is ambiguous for types that can be constructed with the memory resource both first and last (C154);
  the standard takes the first.
* `rtrim(size())` and `ltrim(size())` fail their assertions, as do `rtrim(0)` and `ltrim(0)` on empty spans. For signed index types
  `resize(-1)` and `subspan(3, -2)` are accepted, and give spans of negative size (C155). The constructors of `spanrs` and `spanrsl` from
  an initializer list take `il.begin()`, a pointer to const, and only compile for spans of const elements.
* The redefinitions of `operator delete` in memory_resource.cpp:290-338 (`C4_REDEFINE_CPPNEW`) are not usable: `operator delete(void*)`
  is `C4_NEVER_REACH()` without a size, and `operator delete[](void*, size_t, std::nothrow_t)` names a parameter it does not have.
  With `C4_NO_ALLOC_DEFAULTS`, memory_resource.cpp:24 names `free_pfn`, which is not declared. Neither is modelled.
* Assertions of views are too weak (C159): `offs(l, r)` accepts `l + r == len + 1`; `right_of(len)` is accepted, and `right_of(len, false)` has
  length 2^64-1; `left_of(len, true)` has length `len+1`; `reverse_range` accepts exchanged ends; `erase(1, npos)` and `reverse_sub(1, npos)` pass the
  assertion since the sum wraps, and `erase` writes past the end.
* `atoi("+5")` fails an assertion, while a release build returns false; so do `atoi_first(" +5")`, `atof("")`, `atof(" 1")`, `atof("0x")`,
  `atof("0x-1")`, `atof("0x0x1")` and `atof("0x1p++3")` (C160).
* C163: the assertions of `base64_decode` (and `base64_valid`, which it asserts) do not refuse every text that is not base64: `=` is refused in the last two
  places of a group that is not the last, but not in the first two places, so that `====` gives the byte 255 and `=aaa` gives three bytes.
* C164: the text form of `decode_code_point` asserts that the text does not begin with `0`, meant for the prefix `0x`; it refuses `0041` and every text of
  code point zero in builds with assertions, which builds without them decode.
* C165: `split(sep, len)` of a text that is not empty fails an assertion, though without assertions it is the one empty piece (or none) after the end;
  `pair_range(c, c)` finds pairs of equal characters such as quotes without assertions, and fails its assertion on every pair that it finds.
* C166: without assertions an item of a bitmask that is empty or blank is read again from the start of the item before, as a number: `1 ||2` is 3,
  and `red||2` is an error. Assertions refuse both.
* C91, C167: `SmallAllocator::reallocate` within its array does not change the count of objects: releasing the block afterwards fails an assertion, and without
  assertions the count wraps around and the next block is placed before the array.
* C168: the default `arealloc` frees the old block with the `afree` of the moment, so blocks held across a change of functions go to the wrong heap; `arealloc(nullptr, 0, n)`
  copies from null.  With `C4_NO_ALLOC_DEFAULTS` the code does not compile (`free_pfn` at memory_resource.cpp:24 is not declared), nor with `C4_REDEFINE_CPPNEW`
  (`operator delete[](void*, size_t, std::nothrow_t)` at memory_resource.cpp:335-338 uses an undeclared `size`); found by reading, not modelled.
* **C169** (`C169_refuted`): `C4_CHECK_MSG(cond, fmt, ...)` pastes the spelling of the condition into the format, so `C4_CHECK_MSG(n %s == 0, "bad")` is undefined.
* **C170** (`C170_refuted`): memory_resource.cpp:59-60 formats `size` twice, the second time as the alignment; enum.hpp:66 passes a `size_t` for the `int` of `%.*s`, which is undefined.
* **C172** (`C172_refuted`): `from_chars(csubstr, std::string*)` resizes the string before it asserts that the view is not of it, so `from_chars(to_csubstr(s).sub(2), &s)` for `s == "abcd"` is accepted and gives "\\0d".
* **C173** (`C173_refuted`): `catrs_append(&s, to_csubstr(s))` reads released memory whenever the string has to grow.
* **C174** (`C174_refuted`): `catrs(&s, "xy", to_csubstr(s).first(2))` for "abcdef" passes the assertions and gives "xyxy". With assertions, views that are not rejected are views of what has been written already (`C174_behind_partial`). The same happens if the result is longer than the string but within its capacity: the first pass, cut at the end of the string, has overwritten the views before the second reads them
  (`C174_within_exact`); `catrs(&s, "xy", to_csubstr(s).first(1))` for "ab" gives "xyx".
* **C175** (`C175_refuted_*`): `make_room(buf, bufsz, currsz, pos, room)` asserts `room + currsz <= bufsz`, which wraps: a gap of 2^64-1 in a full buffer of one element is accepted. The versions for two buffers reject a gap at the end
  (`pos == srcsz`), and `destroy_room` to another buffer rejects to remove nothing at the end. The functions for n objects assert `dst != src`, which lets every other overlap pass to `memcpy`. By reading: for index types narrower than `int`
  the positional `make_room` does not compile, as `currsz - pos` is an `int` and `room` is not.
* **C176** (`C176_repeat_release`, `C176_lsb_zero`; not a failure): the assertion of `mem_repeat` also rejects calls that work without it, with the pattern inside the destination behind its first copy. Without assertions and intrinsics
  `lsb(0)` is 8 and 16 for the narrow types but 31 and 63 for the wide ones.
* **C177** (`C177_refuted*`): `SmallAllocator::operator==` says false even for the same object, and the type is copyable: a copy takes over the number of live objects but not the blocks. It passes the blocks in the array of the original to
  the memory resource when asked to release them. Assignment replaces the number of objects of an allocator whose blocks are live, so that the next block may lie on them.
* With `C4_REDEFINE_CPPNEW` defined memory_resource.cpp does not compile (line 336 uses a parameter without a name); `operator delete(void*)` is marked as never reached, which a program is free to
  call, and the overloads for `nothrow` take it by value, so that they do not replace those of the standard library. Found by reading.
* **C136** (`C136_exact`, `C136_back`): with the global resource as provider, changing the global resource while objects are held makes the counts wrong by exactly these objects, but no memory is lost.
* **C179** (`C179_catsep_refuted`, `C179_format_refuted`): appending to a container a separator, argument or format text that is a view of it reads released memory whenever the capacity does not suffice.
* **C180** (`C180_refuted`): `formatrs(&s, view of s, ...)` goes on parsing the format text in the container that it overwrites: with `"{}{}"` at the beginning of the container and arguments `"wxyz"` and `"!"` the result is
  `"wxyzyz"`, with and without assertions. Format texts of which each part is read before it is overwritten give the right result (`C180_own_format_partial`).
* `MemoryResourceStack` is declared, but its functions are not defined: it cannot be linked.
* **C84** (`C84_refuted_count`, `C84_refuted_failure`): `from_chars_first(T**)` keeps the size returned by the inner
  call in a `bool`: it returns 1 for every success, and on failure (`npos`) reads an uninitialized variable.
* **C85** (`C85_refuted`): `from_chars_first` for `fmt::raw` returns the `bool` of `from_chars` as a size: always 1.
