# Formal model of metallic (wasm32 libc): design

Target: `jdh8/metallic`, source read as text in `/repo`. Nothing was built or run.
ABI used everywhere: wasm32 as compiled by clang (`int`, `long`, `size_t`, `uintptr_t`,
`ptrdiff_t`, `uint_fast32_t` 32 bits; `long long`, `time_t`, `off_t` 64 bits; `char` signed;
`wchar_t` 32-bit signed; `long double` IEEE binary128; little-endian; two's complement).
The Makefile's flags are `-O3 -flto` without `-fwrapv`, so signed overflow is undefined behaviour.

## Layout

* `lean/Verif/<Area>/Model.lean` transcribes C functions; each definition cites file and lines.
* `lean/Verif/<Area>/Spec.lean` holds the specification, written without model helpers.
* `lean/Verif/<Area>/Props.lean` holds only the property theorems (named `Cnn_…`) and, beside each,
  `example`s that show the hypotheses are met by a concrete non-trivial case.
* The other files of an area hold proof machinery.
* `Verif/Float/{Spec,Arith}.lean`: IEEE-754 formats, rounding to nearest even, and the wasm `f32`/`f64`
  instructions as exact arithmetic followed by that rounding. `Verif/Base.lean`, `Verif/Bits.lean`: checked machine integers and bit lemmas.

## Modelling conventions

* Machine integers are `Nat` reduced with `% 2^k` or `Int` with checked wrap functions (`chk32`, `chk64`,
  `chk128`). Wrap-around that C defines (unsigned) is modelled; signed overflow is `none`.
* `none` always stands for undefined behaviour, an access outside the memory given, or a loop that has not ended
  within its fuel. A property theorem therefore states `= some …`; it never holds because of a totalised default.
* Loops become structural or well-founded recursion. Where the C may not terminate the
  model takes fuel, and non-termination is stated as "out of fuel for every fuel".
* External calls (WASI, host functions, allocators, comparison callbacks, exit handlers) are parameters,
  quantified over in the theorems. Files are arbitrary state machines: any reply to any request.
* Floating-point values are bit patterns. Hardware `f64` operations are exact arithmetic followed by a rounding
  function defined in the float specification; this is the IEEE-754 semantics wasm prescribes.
* A claim that the code violates has a theorem stating the negation with a concrete witness, and a `_partial`
  theorem on the largest domain where it was proved.

## What is modelled, and how it is proved

| area | C files (under `/repo/src`) | specification | method |
|---|---|---|---|
| Ctype | ctype/*; wctype/{iswctype,towctrans,towlower,towupper,wctrans,wctype}.c | membership in ASCII classes listed as text | case split on the unsigned comparisons, bit lemmas for `c \| 32`, `c & ~32` |
| Utf | stdlib/{mblen,mbtowc}.c; uchar/{c16rtomb,c32rtomb,mbrtoc16,mbrtoc32}.c; wchar/{btowc,mbrtowc,mbsinit,mbsrtowcs,wcrtomb,wcsrtombs,wctob}.c | Unicode Table 3-7 | state-machine invariants |
| Int128 | soft/integer/*; soft/float/{floatditf,floattitf,floatunditf,floatuntitf,floattidf,floattisf,…}.c | integer arithmetic; nearest-even rounding | naturals with explicit carries; Knuth-style division invariant |
| Time | time/{asctime,gmtime,localtime,mktime,strftime}.c | “the next day” of the Gregorian calendar; text of each conversion | 400-year periodicity, induction on days |
| Strtol | stdlib/{atoi.h,parse/digit.h,parse/integer.h,strtol.c,strtoll.c,strtoul.c,strtoull.c} | C11 7.22.1.4 subject sequences | accumulator invariant |
| Sort | stdlib/{bsearch,qsort}.c | sorted permutation; element equal to the key | invariants of partition, heap and insertion; fuel for bsearch |
| Process | stdlib/{atexit,environ,exit,getenv,quick_exit,rand}.c; signal/{raise,signal}.c; crt1.c; sbrk | handler stacks, environment lookup, histories | transition systems, induction over histories |
| Str | string/{copy.h,mem*.c,str*.c} | byte memory before and after | zero-byte arithmetic lemma, loop invariants, frame lemmas |
| Find | string/strstr.c (memmem, strstr) | first occurrence | critical factorization on lists, loop invariants |
| Stdio | stdio/{_read,_seek,_write,clearerr,fgets,flush.h,fputs,fread,fseek,ftell,fwrite,getc,getdelim,getline,putc.h,puts,rewind,ungetc} | unread text of a stream; arbitrary file state machine | refinement to a byte list |
| Wasi | stdio/{_open,fopen,modeflags.h}; wasi/{errno.h,preopen.c,preopen.h,wasi.h} | mode strings, prefix lookup, preview1 numbers | list recursion, whole-table checks |
| Printf | stdio/{vfprintf,vasprintf,vsnprintf,vsprintf}.c | C11 7.21.6.1 directives and texts; exact values and rounding of floating-point texts | digit-loop induction, parser correctness, composition with arbitrary writes; limb arithmetic as a number in base 10^9, error bounds of the double operations |
| Math | math/double/{fdim,fmax,fmin,fmod,frexp,ilogb,llrint,llround,logb,lrint,lround,modf,nextafter,nexttoward,normalize,remainder,remquo,round,scalbn,split,fma} and float counterparts | integer relations between magnitudes in units of the smallest subnormal | decode to scaled integers; remainder invariants |
| Quad | soft/float/{addtf3,cmptf2,divtf3,eqtf2,extenddftf2,extendsftf2,fixtf*,fixunstf*,multf3,trunctfdf2,trunctfsf2,unordtf2,…}; math/long-double/{isnanl,ldexpl,nearbyintl,nexttowardl,normalizel,sqrtl,truncl} | nearest-even rounding of exact results | 128-bit naturals; rounding lemmas shared with Math |
| Decimal | stdlib/parse/{bigint.h,decimal.h,float.h,nan.h,pow5.h,scientific.h,scientificf.h}; stdlib/{strtod,strtof}.c, decimal forms | C11 7.22.1.3 and nearest-even rounding of the rational value | error bounds of the power-of-five table, separation of decimals from midpoints, big-integer comparison |
| Scanf | stdio/{vfscanf,vsscanf}.c and wrappers | C11 7.21.6.2 as a relation between directives, input and outcome | longest-match lemmas per conversion, induction over directives; safety invariant on push-back |
| Wide | wchar/{wcs*.c (search, copy, compare, wcstok, wcsxfrm, wcscoll), wmem*.c, parse.h, wcstol.c, wcstoll.c, wcstoul.c, wcstoull.c, wcstod.c, wcstof.c} | wide-character memory before and after; C11 7.29.4 | loop inductions; the buffer is a prefix that contains the subject sequence |
| Wio | wchar/{fgetwc.c, fgetws.c, fputwc.c, fputws.c, ungetwc.c, fwide.c, vfwprintf.c, vswprintf.c}, and clearerr.c, fseek.c, getc.h, putc.h of stdio on wide streams | UTF-8 text of a file (`Enc` of Utf/Spec), sequences of fgetwc calls, bytes accepted; C11 7.29.2-7.29.3 | a byte at a time through mbrtowc with the conversion state as invariant; a text divides into characters in one way |
| Arith | stdlib/{abs.h, div.h} with their instances, inttypes/{imaxabs.c, imaxdiv.c}, soft/powi/powi.h; soft/integer/fix*ti.h is in Int128/Fix* | integers; exact values of patterns | representable powers have representable lower powers; the loop keeps exact powers |
| Cplx | soft/complex/{multiplication.h, division.h, divsc3.c} with their instances, math/double/{conj.c, cproj.c, csqrt.c, finite/csqrt.h, clog.h (the real part)} and the float twins of conj and cproj | complex infinities, zeros and exact values; real logarithms from Mathlib; C11 Annex G | classes of results; the norm is multiplicative; the root of a rounded square is exact |
| Life | stdio/{fopen.c, fclose.c, freopen.c, _close.c, _open.c, fgetpos.c, fsetpos.c, remove.c, rename.c}, string/strerror.c; stdlib/{mbtowc.c, mblen.c, wctomb.c, mbstowcs.c, wcstombs.c} and wchar/mbrlen.c are in Utf/Multi.lean | tables of open descriptors, file systems, C11 7.21.4-7.21.9 | an invariant over all sequences of calls: descriptors are a permutation of those of the streams |
| Trip | no code of its own: compositions of Printf with Strtol and Decimal (hexadecimal strings, Decimal/Hex*.lean; strtold in Decimal/LongModel.lean) | a value equals itself | the text of printf is spaces, a subject sequence, spaces; that sequence is the longest; its value is exact |
| Hyp | math/float/hypotf.c | the real square root of Mathlib, nearest patterns | comparisons of squares with squares of midpoints; rounding is monotone; the two-sum is exact; near overflow residues modulo 16 and a search over 21845 operands exclude the gap |
| Host | time/{clock.c, time.c, timespec_get.c, difftime.c}, sys/stat/{stat.c, lstat.c, fstat.c}, wasi/stat_convert.h, locale/setlocale.c, wchar/wcsftime.c; soft/float/{floatsitf.c, floatunsitf.c} are in Quad/Small.lean | seconds and nanoseconds, S_IS macros, nearest doubles, the text of C31 over Unicode characters | arithmetic; composition with C51, C52, C31 and C72; expanding a format commutes with encoding it in UTF-8 |
| Wscan | wchar/{vswscanf.c, vfwscanf.c, swscanf.c, fwscanf.c, vwscanf.c, wscanf.c} | the scan of Scanf/Spec.lean over code points; UTF-8 as in Utf/Spec.lean | scanning commutes with encoding in UTF-8, by induction on the scan; composition with C103, C49 and C137. fgetwc is taken to give Unicode scalar values only |
| Approx | math/float/{expf.c, exp2f.c, expm1f.c, expm1f.h, expf.h, sinhf.c, coshf.c, tanhf.c, kernel/expf.h, kernel/exp2f.h, logf.c, log2f.c, log10f.c, log1pf.c, finite/log1pf.h, asinhf.c, acoshf.c, atanhf.c, kernel/atanhf.h, cbrtf.c, atanf.c, asinf.c, acosf.c, kernel/atanf.h, kernel/asin.h, sinf.c, cosf.c, tanf.c, rem_pio2f.c, kernel/sinf.h, kernel/sincosf.h, powf.c, dd.h, log2_dd.h, atan2f.{h,c}, cargf.c, cisf.h, csinhf.{h,c}, ccoshf.{h,c}, csinf.c, ccosf.c, ctanhf.c, ctanf.c, clogf.c, csqrtf.c, catanf.{h,c}, catanhf.c, casinhf.{h,c}, casinf.c, cacoshf.{h,c}, cacosf.c, finite/cashf.h}, math/double/shift.h | the real functions of Mathlib; nearest patterns as in Hyp/Spec.lean | forward error analysis of every operation over the reals: each double operation is off by a relative 2^-53; Taylor bounds of Mathlib for the polynomials, coefficient by coefficient; the series of artanh for logarithms; for trigonometric functions the distance of the floats of each exponent from the multiples of π/2, from a certificate (a unimodular basis of the lattice) checked by the kernel against 300 bits of 2/π, which are proved; for inverse trigonometric functions the derivative of the difference, a quotient of integer polynomials whose sign on a grid of intervals the kernel checks; for powf the errors of fma where the addend dominates, and a Chebyshev expansion of the polynomial for 2^h; for atan2f the error bounds of the 128-bit numbers, the Taylor polynomial near zero, and that the value is next to a midpoint whenever the second attempt is made; n << 52 of a negative n is taken as a multiplication |

Simplifications are noted at the head of each `Model.lean` and at the definitions. The main ones:

* String functions return their pointer argument by inspection; reading (not writing) bytes outside an object but inside
  linear memory is allowed, as the word-at-a-time loops rely on it.
* `qsort` works on whole elements; swapping an element with itself through `restrict` pointers is not expressed.
* `errno` is left out except for WASI replies and range errors of number parsing.
* Formatted output is computed as a sequence of writes, and the stream is applied to it afterwards; `%s` arguments do
  not overlap the output. `%f %F %a %A` are modelled apart (FloatModel): a read of a limb that was never written is undefined, scratch arrays have their declared capacity and overruns are reported, the signed shift of line 801 wraps.
* Formatted input of floating-point numbers stops at the text handed to `strtof`/`strtod`/`strtold`.
* Left shifts of negative integers (`exp << 52`, `__ashlti3`) are multiplications, as clang compiles them; strict C
  leaves them undefined.
* `extenddftf2` ends in `copysignl(m, x)`, whose expansion by the compiler (no call to itself) is assumed.
* Counters of characters do not overflow (strings shorter than 2^31).

Not modelled: `malloc.c` (vendored dlmalloc), transcendental math (`exp`, `sin`, …: accuracy claims need real analysis
and per-function error bounds), complex soft-float, `strtold`, hexadecimal floating-point input, floating-point
output, the host-specific `src/math/reinterpret` macros beyond their meaning as bit casts, the C compiler and its
optimisations, the WASI host.

## Disagreements between the code and its properties

Each is proved of the model by the theorem named. Inputs and consequences are in the theorem's comment.

* C07 (memchr never looks past its length): violated: a misaligned range that ends before the next multiple of 8 and lacks the character is searched past its end (C07_memchr_overruns); proved otherwise.
* C08 (memset writes exactly n bytes): violated: a misaligned range that ends before the next multiple of 8 overruns memory (C08_memset_overruns); proved otherwise.
* C11 (strncpy copies at most n bytes and zero-pads): violated through memset when the padding is misaligned and short (C11_strncpy_overruns); proved otherwise.
* C12 (strncat always terminates its result): violated: no terminator when n is at most the source length (C12_strncat_unterminated); proved for larger n.
* C16 (strstr/memmem find the first occurrence): violated: factorize_ compares the index -1 as the largest size_t; memmem is correct for all haystacks exactly when the needle has both larger- and smaller-differing suffixes or neither (C16_memmem_partial, C16_memmem_misses); every returned position is an occurrence (C16_memmem_sound).
* C19 (128-bit signed division truncates toward zero): exact for all operands except -2^127, where the code executes signed overflow (C19_min_is_undefined).
* C21 (Integer to floating conversions round to nearest even): unsigned: all values; signed: all but the most negative one, whose negation overflows.
* C23 (mbrtowc accepts exactly well-formed UTF-8): acceptance is exact; the code violates the incompleteness part: (size_t)-2 for bytes such as E0 80 that begin no well-formed sequence (C23_incomplete_overreported).
* C27 (c16rtomb rejects ill-formed UTF-16): the code accepts two consecutive high surrogates (C27_violated).
* C30 (mktime normalizes every field combination): violated for tm_mday that reach before the last March 1 of a year divisible by 400 (unsigned day of era zero-extends); proved for all other inputs incl. every tm_mday >= 1.
* C32 (strtol family returns the exact saturated value): all strings and bases; the one missing case is the violation: a subject denoting LONG_MIN/LLONG_MIN overflows a signed multiplication (C32_min_undefined).
* C33 (qsort sorts): every array, element size and consistent comparator, provided the array's address is at least one element size; below that the loop bound wraps (C33_low_address).
* C34 (bsearch terminates and finds): violated: an absent key greater than the first element makes bsearch recurse forever (C34_diverges); proved for keys present and for absent keys below every element.
* C36 (rand never gets stuck): violated: the 32-bit product wraps, three seeds give a constant sequence and the default sequence has period 31396; determinism by seed holds (C36_partial).
* C39 (abort terminates the process): violated for the default disposition of SIGABRT: abort raises and raise calls abort, forever; with a handler or SIG_IGN it exits with 134.
* C46 (printf integer conversions print the exact decimal, octal and hexadecimal text): every format of literals, %%, d i o u x X c s n with any flags, width, precision and length modifier; violated for the least intmax_t, whose negation overflows (C46_min_undefined).
* C47 (printf never writes outside its own scratch buffers): violated: DECIMAL_DIGITS evaluates to 1 (signed) and 2 (unsigned); every %d of two digits or more and every %u of three or more stores below its array; other conversions stay inside.
* C48 (printf %s honours the precision): violated: for a misaligned string whose precision ends before the next multiple of 8 the whole string is printed (C48_precision_overrun); proved otherwise, with memory ending right behind the string.
* C49 (scanf leaves the first unmatched character unread): false in general: the character after an item or of a matching failure is taken from the stream and dropped (C49_lost, C49_lost_literal); at most one character is lost, and none when the input is exhausted or the last directive is an ordinary character or %c.
* C50 (fread/fwrite report full items): violated for item size 0 (division by zero) and for files that deliver less than asked for (fread stops and reports the end of the file); proved: exact transfer and indicators for one request.
* C51 (Paths resolve through the longest matching preopened directory): violated for a preopened / and for names starting with ./; proved for the table of trimmed names.
* C52 (WASI errors map to the POSIX errno of the same name): violated for numbers above 76: the table is read out of bounds.
* C53 (sbrk hands out disjoint growing regions): histories proved for memories of at most 2 GiB; above, brk + increment wraps (C53_wraps).
* C59 (remquo reports a quotient of the right sign): the property is violated for negative divisors (the quotient has the sign of x); proved for the others, and the remainder and the low bits of the quotient for all.
* C60 (fma rounds once): the property is violated: fma(1,1,-1) is -1/4; proved when an argument is zero and when the addend dominates and is not a power of two of the opposite sign; a few units in the last place when the product is at most 3/4 of the addend.
* C61 (lround rounds to nearest, halves away from zero): the property is violated exactly at +-0.49999999999999994; proved for all other finite doubles.
* C62 (nearbyintl rounds long doubles to integers): holds for long doubles that are doubles; fails beyond double precision, e.g. 2^60 + 1 (C62_nearbyintl_violated).
* C65 (binary128 addition is correctly rounded): operands of the same sign and exponent shift by 128, undefined in C (C65_add_undefined); correctly rounded otherwise, except that a power of two minus a number in the 114th binade below it is misrounded (C65_sub_misrounds).
* C66 (float/double to long double is exact and truncation back rounds correctly): all but long double to double, which is characterised exactly: wrong on ties below an even number and just below the normal range.
* C68 (strtod is correctly rounded): proved for up to 20 digits with any exponent, up to 38 digits with |exponent| <= 54, and up to 4000 digits when the exponent relative to the first 38 is at most 54 in size and those are not odd and just below a midpoint (sequences up to 31000 characters); false for 21 digits with a large exponent (C68_many_digits) and for digits beyond the 38th deciding a midpoint (C68_long_digits).
* C69 (strtod reports no conversion when there are no digits): proved unless an exponent part follows the optional sign and point, where the exponent is consumed (C69_exponent_alone).
* C70 (strtof is correctly rounded): proved as for C68 unless the nearest double is a midpoint of floats and the value is not, where the value is rounded twice (C70_twice), and unless there are more than 38 digits and the nearest double ends in a one and 28 zeros, where the result may be two units off (C70_forced).
* C74 (atoi family returns the value of the decimal prefix): INT_MIN/LONG_MIN/LLONG_MIN overflow.
* C75 (The heap starts above static data): the property is violated: crt1.c initialises the break to 1..256, below the static data; only the negation is proved.
* C77 (Output functions report failed writes): violated by puts.
* C78 (ungetc returns the character pushed back): violated for arguments outside 0..255: the result is not converted.
* C79 (ftell reports and fseek restores the logical position): violated: ftell clears the end-of-file indicator and moves append streams to their end.
* C80 (clearerr clears the two indicators and nothing else): violated: the append bit is cleared too.
* C82 (Files are opened with the WASI rights of the operations needed): violated: __WASI_RIGHTS_PATH_CREATE_FILE has the bit of path_create_directory.
* C83 (fprintf reports every failed write): for the formats of C46_text_partial.
* C84 (printf pads characters and strings to the field width): violated: the field width is ignored by %c and %s (C84_width_ignored); proved when the text is as wide as the field.
* C85 (asprintf allocates exactly the text): for the formats of C46_text_partial.
* C86 (printf supports the exponent conversions): the property is violated: the conversions are missing and the call returns -2; only the negation is proved.
* C94 (long double to integer conversion truncates): conversion of -2^127 to __int128 overflows (C94_least_undefined); all others proved.
* C97 (binary128 division is correctly rounded): special operands proved; finite quotients are misrounded for some operands (C97_div_violated).
* C98 (sqrtl is correctly rounded): special operands proved; roots of numbers near 1 may be off by more than 100 units in the last place (C98_sqrt_violated).
* C99 (endptr points after the longest number): proved for every decimal except zeros with a final point, whose point is left (C99_point_left); hexadecimal forms not covered.
* C101 (nan and nan(tag) are converted): values proved for every tag, endptr for numeric tags; other tags are left (C101_letters).
* C102 (Number parsing stays inside its buffers): proved for decimal numbers of at most 4000 digits; false beyond (C102_overflow: the 256-limb buffer overflows).
* C103 (scanf converts what the standard says): proved for all formats and inputs except the cases where the library differs from the standard, each with a witness: numbers of more than 127 characters, integers outside 64 bits and -2^63, zeros and integer failures that use up the field width, partial %c, %%, incomplete floating-point numbers, input failure after suppressed conversions only.
* C104 (scanf is safe for every format and input): missing: signed conversions of inputs with a minus sign, where -2^63 is undefined (C103_min), and field widths of ten digits or more, which overflow (C104_width).
* C109 (wcstol converts like strtol): proved when the subject sequence ends within the first 127 characters; beyond, the string is cut (C109_long: 127 zeros before a 1, 127 blanks before a 1); LONG_MIN and LLONG_MIN as for C32.
* C110 (wcstod converts like strtod): proved as for C68, C70, C99 and C100 when the subject sequence ends within the first 255 characters; beyond, the string is cut (C110_long).
* C111 (fgetwc decodes the file): decoding proved for every file behaviour; violated at the end of a file inside a character (end indicator instead of an encoding error, C111_cut) and by read errors (the end indicator is set too, C111_read_error).
* C112 (fgetws reads one line): violated after an encoding error inside a line: the part before it is returned (C112_error_hidden).
* C114 (ungetwc pushes back one character): violated by clearerr, which forgets the character, and by fseek, which keeps it.
* C115 (The orientation of a stream is fixed once): violated by the byte functions, which never give a stream byte orientation (C115_bytes).
* C116 (swprintf stores the text): exact when the text fits, for the formats of C46; violated by texts that do not fit (cap - 1 is returned instead of a negative value, C116_truncated), and by precisions, which count bytes: a character cut by one disappears (C116_cut, C116_precision).
* C117 (fwprintf writes the text): for the formats of C46; the value returned counts bytes (C117_counts_bytes) and malformed strings are passed on (C117_malformed_passed).
* C118 (printf rounds decimals correctly): exact from 2^64 on; error below 1/2 + 2^-49 units in the last place from 2^-8 to 2^64, correctly rounded there without decimals; error at most 0.55 units below 2^-8 whenever the call reads no limb that was not written, exact for zeros and with 1074 decimals or more; violated next to ties: the double 0.005 is above 0.005 but %.2f prints 0.00 (C118_wrong).
* C119 (%f stays within its scratch arrays): no overrun from 2^-8 to 99 and from 2^64 on; violated by every number from 100 to 2^64 (C119_overruns), by zeros (C119_zero_overruns) and by others below 2^-8, such as 0.001 (C119_small_overruns).
* C120 (%a prints a double exactly): violated by zeros and subnormal numbers with a precision from 1 to 12: the digits are not filled up with zeros on the left, %.3a of 0x0.01p-1022 prints 0x1.0p-1022 (C120_lost_zeros).
* C121 (%La prints a long double exactly): violated as C120 is, with precisions from 1 to 27 (C121_lost_zeros).
* C122 (printf knows all floating-point conversions): violated by all of them: the call ends there and returns -2 (C122_no_exponents, C122_no_long_double).
* C123 (Floating-point numbers convert to 128-bit integers exactly): violated by -2^127, which __int128 can hold: the shift of the signed upper half overflows (C123_min_is_undefined).
* C125 (Integer powers): negative exponents are covered if the reciprocal of the base is representable; violated by the exponent INT_MIN, whose negation overflows even if the base is 1 (C125_min_is_undefined).
* C127 (Complex quotients of infinities and zeros): violated by (DBL_MAX + i DBL_MAX) / (inf + i inf), which has a NaN part because the numerator overflows; proved if it does not.
* C128 (Complex quotients do not overflow without need): violated by (DBL_MAX + i DBL_MAX) / (1 + i); proved for divisors that are real powers of two.
* C129 (Complex square roots): violated for large and small numbers: the root of 2^600 is infinite, that of i 2^-600 is i times infinity, that of 2^-1074 has a NaN part; real numbers are right from 2^-511 to 2^511.
* C130 (The real part of the complex logarithm): violated: away from the unit circle the logarithm of the reduced modulus is added twice, and squares overflow; only infinities, zeros and NaNs are right.
* C132 (fclose closes once and says what went wrong): violated: errno is always EPERM after a failure, and a standard stream is passed to free; the rest is proved.
* C133 (No descriptor is leaked or closed twice): proved for every sequence of calls that has defined behaviour; undefined are fopen when malloc fails, and fclose or a failing freopen of a standard stream.
* C134 (fgetpos and fsetpos): violated from 2 GiB on, on streams opened for appending, and by a character pushed back with ungetwc.
* C136 (Error messages tell errors apart): violated: 26 of the errors the host may report have no message.
* C138 (Hexadecimal floating-point strings): violated: subnormal results of more digits than the type has are rounded twice, an exponent after 0x without digits is consumed, the end of 0x0. is one short; correct rounding is proved for all other strings of up to 7000 characters (3800 for long double).
* C140 (Printed integers are read back): all values but the least of intmax_t, long and int, which the parsers overflow on (C32_min_undefined); zero with the precision 0 has no digits.
* C143 (stat, lstat and fstat describe the file the host describes): false for sizes from 2^63 and link counts from 2^32, which are truncated (C143_violated); the directory table has the defects of C51.
* C144 (difftime is the exact difference rounded once): true for times up to 2^53; beyond, both operands are rounded before the subtraction and neighbouring times differ by 0.
* C145 (wcsftime is strftime for wide characters): an empty text (format empty or percent Z) leaves the array without terminator (C145_empty_violated).
* C148 (swscanf scans wide text as scanf scans bytes): all text for formats of white space, ordinary characters, numbers and %s without width, ASCII text for all formats; false for %c, %n, %[ and widths on other text, and for %ls (C148_violated); what C103 leaves out is left out here too.
* C149 (fwscanf scans the stream and leaves the rest of it): as C148; the character that ends an item is lost (C149_lost), at most one for ASCII text.
* C150 (expf is accurate): proved for all finite and infinite floats; false for NaN, whose conversion to int64_t is undefined in C (C150_nan_violated).
* C164 (powf is correctly rounded): correctly rounded for all results between 2^-126 and 2^127 at a relative distance above 2^-38 from the midpoints of floats, hence exact whenever such a power is a float, and for results above 2^131 or below 2^-161; violated elsewhere, because the second attempt relies on fma, which is wrong under cancellation (C60): powf(2, 127) is 0.71 times 2^127, powf(4097, 2) is 13052638 instead of 16785408.
* C166 (atan2f and cargf are correctly rounded): for all finite arguments but for y = 0 (C165) the result is the argument within a relative error of 2^-39, rounded, hence one of the two floats around it, with the sign of y and not above the float next to π; correct rounding is violated in the third quadrant, where the second attempt adds the angle to π instead of subtracting it: atan2f is not odd in y there.
* C168 (csinhf and ccoshf handle the special cases of C11 Annex G): proved for all real parts but NaN; a NaN as the real part reaches the conversion of a NaN to an integer in expm1f_ (as C150), undefined behaviour, so that the last clause is violated.
* C170 (ctanhf and ctanf handle the special cases of C11 Annex G): violated for a negative zero angle, which gives a positive zero because its sine is computed as -0 plus a correction of +0, and for a NaN as the real part (undefined behaviour in expm1f_, as C150).
* C171 (clogf is the complex logarithm): the special cases and the imaginary part are proved; the real part is violated: clogf(1+i) has the real part 0, clogf(2) half the logarithm of two, because the double-double product relies on fma, which is wrong under cancellation (C60).
* C172 (csqrtf is the principal square root): the special cases are proved, and correct rounding at finite numbers of norm at least 2^-75 whose root has parts that are not subnormal and lie farther than 2^-38 (relatively) from midpoints of floats; violated elsewhere: csqrtf(1) is 1.159, because the refinement of the root relies on fma, which is wrong under cancellation (C60).

Observed while reading but outside the model: `return` from `main` ends the program without running `atexit` handlers
(`crt1.c`); `fclose` stores a negative `errno`; `freopen(NULL, …)` drops the append bit; `mbrtoc16`/`mbrtoc32` with a
null `s` read an uninitialised variable; `wcstol` and friends see at most 127 characters; `system` returns 1 for a
command; `difftime` rounds twice; `%f` rounds small values wrongly.

## Trusted base

* The Lean 4.33.0 kernel. Axioms: `propext`, `Classical.choice`, `Quot.sound` only, listed per theorem below (from
  `#print axioms`; p, c, q stand for the three, "none" for none of them). No `sorry`, `native_decide`, `bv_decide`, own
  axioms, `implemented_by` or `unsafe`.
* `decide +kernel` is used for evaluation of closed terms and finite tables; it is checked by the kernel.
* The reading of the C source: the definitions in `*/Model.lean` are hand transcriptions of the lines they cite.
* The specifications in `*/Spec.lean` and `Verif/Float/Spec.lean`.
* wasm32 ABI facts listed at the top; the wasm instruction semantics in `Verif/Float/Arith.lean`.

## Mutation testing

`seeded/LOG.jsonl` has one line per seeded bug: the definition of the model edited, the edit, the claim it breaks and the
property theorems that no longer prove. Edits that no theorem noticed led to a tighter theorem (`theorems_tightened`) or turned
out to be equivalent on all inputs (noted).

## Claims

| id | property | status | theorems (axioms) | remarks |
|---|---|---|---|---|
| C01 | ctype classification is exactly ASCII | proved | `Ctype.C01_ctype_classes` (pcq)<br>`Ctype.C01_undefined_below` (pcq) | for every int except the 97 smallest, where ctype macros overflow signed arithmetic (C01_undefined_below) |
| C02 | Case mapping is total, idempotent and only touches letters | proved | `Ctype.C02_case_mapping` (pcq)<br>`Ctype.C02_case_inverse` (pcq) | proved as stated |
| C03 | memmove copies as if through a temporary | proved | `Str.C03_memmove` (pcq) | proved as stated |
| C04 | memcpy copies exactly n bytes | proved | `Str.C04_memcpy` (pcq) | proved as stated |
| C05 | strlen finds the first NUL for every alignment and never leaves the string's words | proved | `Str.C05_strlen` (pcq) | proved as stated |
| C06 | strchr returns the first occurrence | proved | `Str.C06_strchr` (pcq) | proved as stated |
| C07 | memchr never looks past its length | partial | `Str.C07_memchr_partial` (pcq)<br>`Str.C07_memchr_overruns` (pcq) | violated: a misaligned range that ends before the next multiple of 8 and lacks the character is searched past its end (C07_memchr_overruns); proved otherwise |
| C08 | memset writes exactly n bytes | partial | `Str.C08_memset_partial` (pcq)<br>`Str.C08_memset_overruns` (pq) | violated: a misaligned range that ends before the next multiple of 8 overruns memory (C08_memset_overruns); proved otherwise |
| C09 | String comparison is the lexicographic order on unsigned bytes | proved | `Str.C09_memcmp` (pcq)<br>`Str.C09_strcmp` (pcq)<br>`Str.C09_strncmp` (pcq) | proved as stated |
| C10 | strcpy/strcat build exactly the expected string | proved | `Str.C10_strcpy` (pcq)<br>`Str.C10_strcat` (pcq) | the returned pointer is the argument by inspection and not modelled |
| C11 | strncpy copies at most n bytes and zero-pads | partial | `Str.C11_strncpy_partial` (pcq)<br>`Str.C11_strncpy_overruns` (pq) | violated through memset when the padding is misaligned and short (C11_strncpy_overruns); proved otherwise |
| C12 | strncat always terminates its result | partial | `Str.C12_strncat_partial` (pcq)<br>`Str.C12_strncat_unterminated` (pcq) | violated: no terminator when n is at most the source length (C12_strncat_unterminated); proved for larger n |
| C13 | strspn, strcspn and strpbrk measure maximal prefixes | proved | `Str.C13_strspn` (pq)<br>`Str.C13_strcspn` (pcq)<br>`Str.C13_strpbrk` (pcq) | proved as stated |
| C14 | strrchr returns the last occurrence | proved | `Str.C14_strrchr` (pcq) | proved as stated |
| C15 | strtok_r splits a string into its maximal delimiter-free runs | proved | `Str.C15_strtok_r` (pcq) | proved as stated |
| C16 | strstr/memmem find the first occurrence | partial | `Find.C16_memmem_partial` (pcq)<br>`Find.C16_memmem_sound` (pcq)<br>`Find.C16_memmem_misses` (pcq)<br>`Find.C16_strstr_partial` (pcq)<br>`Find.C16_strstr_misses` (pq) | violated: factorize_ compares the index -1 as the largest size_t; memmem is correct for all haystacks exactly when the needle has both larger- and smaller-differing suffixes or neither (C16_memmem_partial, C16_memmem_misses); every returned position is an occurrence (C16_memmem_sound) |
| C17 | 128-bit multiplication is exact modulo 2^128 | proved | `Int128.C17_multi3` (pcq)<br>`Int128.C17_full_product` (pcq) | proved as stated |
| C18 | 128-bit unsigned division is exact | proved | `Int128.C18_udivmod` (pcq) | proved as stated |
| C19 | 128-bit signed division truncates toward zero | partial | `Int128.C19_divmod_partial` (pcq)<br>`Int128.C19_mod_min` (pcq)<br>`Int128.C19_min_is_undefined` (p) | exact for all operands except -2^127, where the code executes signed overflow (C19_min_is_undefined) |
| C20 | 128-bit shifts agree with the mathematical shifts | proved | `Int128.C20_shl_shr` (pcq)<br>`Int128.C20_sar` (pcq) | signed left shifts read modulo 2^64 as clang compiles them |
| C21 | Integer to floating conversions round to nearest even | partial | `Int128.C21_unsigned` (pcq)<br>`Int128.C21_signed_partial` (pcq)<br>`Int128.C21_min_is_undefined` (p)<br>`Int128.C21_di_to_long_double` (pcq)<br>`Int128.C21_signed_di_to_long_double` (pcq) | unsigned: all values; signed: all but the most negative one, whose negation overflows |
| C22 | UTF-8 encode then decode is the identity | proved | `Utf.C22_wcrtomb_encodes` (pcq)<br>`Utf.C22_roundtrip` (pcq)<br>`Utf.C22_reencode` (pcq) | proved as stated |
| C23 | mbrtowc accepts exactly well-formed UTF-8 | partial | `Utf.C23_accepts_well_formed` (pcq)<br>`Utf.C23_accepts_only_well_formed` (pcq)<br>`Utf.C23_error_is_definite` (pcq)<br>`Utf.C23_prefix_incomplete` (pcq)<br>`Utf.C23_incomplete_overreported` (pcq)<br>`Utf.C23_incomplete_partial` (pcq) | acceptance is exact; the code violates the incompleteness part: (size_t)-2 for bytes such as E0 80 that begin no well-formed sequence (C23_incomplete_overreported) |
| C24 | mbrtowc is restartable at every split point | proved | `Utf.C24_restartable` (pcq) | proved as stated |
| C25 | wcrtomb rejects non-scalar values | proved | `Utf.C25_wcrtomb_rejects` (pcq) | proved as stated |
| C26 | UTF-16 conversion round-trips | proved | `Utf.C26_utf16_to_utf8` (pcq)<br>`Utf.C26_utf8_to_utf16` (pcq) | proved as stated |
| C27 | c16rtomb rejects ill-formed UTF-16 | partial | `Utf.C27_rejects_partial` (pcq)<br>`Utf.C27_violated` (p) | the code accepts two consecutive high surrogates (C27_violated) |
| C28 | gmtime yields the proleptic Gregorian date | proved | `Time.C28_calendar` (pcq)<br>`Time.C28_unique` (pcq)<br>`Time.C28_gmtime` (pcq) | year and year-1900 must be ints |
| C29 | mktime inverts gmtime | proved | `Time.C29_mktime_gmtime` (pcq) | proved as stated |
| C30 | mktime normalizes every field combination | partial | `Time.C30_normalize_partial` (pcq)<br>`Time.C30_nonpositive_day_wrong` (p) | violated for tm_mday that reach before the last March 1 of a year divisible by 400 (unsigned day of era zero-extends); proved for all other inputs incl. every tm_mday >= 1 |
| C31 | strftime never overruns its buffer | proved | `Time.C31_text_exists` (pcq)<br>`Time.C31_fits` (pcq)<br>`Time.C31_too_long` (pcq)<br>`Time.C31_bounds` (pcq) | proved as stated |
| C32 | strtol family returns the exact saturated value | partial | `Strtol.C32_strtol_partial` (pcq)<br>`Strtol.C32_strtoll_partial` (pcq)<br>`Strtol.C32_strtoul` (pcq)<br>`Strtol.C32_strtoull` (pcq)<br>`Strtol.C32_no_conversion` (pcq)<br>`Strtol.C32_min_undefined` (pcq) | all strings and bases; the one missing case is the violation: a subject denoting LONG_MIN/LLONG_MIN overflows a signed multiplication (C32_min_undefined) |
| C33 | qsort sorts | partial | `Sort.C33_qsort_partial` (pcq)<br>`Sort.C33_low_address` (pq) | every array, element size and consistent comparator, provided the array's address is at least one element size; below that the loop bound wraps (C33_low_address) |
| C34 | bsearch terminates and finds | partial | `Sort.C34_present_partial` (pcq)<br>`Sort.C34_absent_partial` (pq)<br>`Sort.C34_diverges` (pq) | violated: an absent key greater than the first element makes bsearch recurse forever (C34_diverges); proved for keys present and for absent keys below every element |
| C35 | rand stays within 0..RAND_MAX and is a function of the seed | proved | `Process.C35_rand_range` (pcq) | proved as stated |
| C36 | rand never gets stuck | partial | `Process.C36_stuck` (none)<br>`Process.C36_short_period` (pq)<br>`Process.C36_partial` (pq) | violated: the 32-bit product wraps, three seeds give a constant sequence and the default sequence has period 31396; determinism by seed holds (C36_partial) |
| C37 | exit runs atexit handlers in reverse registration order, once each | proved | `Process.C37_exit_lifo` (pcq)<br>`Process.C37_quick_exit_lifo` (pcq)<br>`Process.C37_exit_ends` (pcq) | proved as stated |
| C38 | atexit accepts at least 32 handlers and reports failure afterwards | proved | `Process.C38_capacity` (pq) | proved as stated |
| C39 | abort terminates the process | partial | `Process.C39_abort_diverges` (p)<br>`Process.C39_abort_partial` (pq) | violated for the default disposition of SIGABRT: abort raises and raise calls abort, forever; with a handler or SIG_IGN it exits with 134 |
| C40 | getenv finds exactly the named variable | proved | `Process.C40_getenv` (pcq)<br>`Process.C40_failure` (p) | proved as stated |
| C41 | signal swaps handlers atomically over its table | proved | `Process.C41_signal` (pcq) | proved as stated |
| C42 | Pushed-back characters are read back in LIFO order before the stream | proved | `Stdio.C42_stream_is_stack` (pq)<br>`Stdio.C42_readback` (pcq) | proved as stated |
| C43 | fgets reads one line within its buffer | proved | `Stdio.C43_fgets_any_file` (pcq)<br>`Stdio.C43_fgets_line` (pcq) | proved as stated |
| C44 | getdelim returns exactly the bytes up to the delimiter and never overruns its buffer | proved | `Stdio.C44_getdelim_any_file` (pq)<br>`Stdio.C44_getdelim_no_buffer` (p)<br>`Stdio.C44_getdelim_line` (pq) | lines shorter than 2 GiB, whose length fits ssize_t |
| C45 | snprintf truncates safely | proved | `Printf.C45_any_output` (pcq)<br>`Printf.C45_snprintf_partial` (pcq) | C45_any_output: every sequence of writes; C45_snprintf_partial: from format and arguments, without f F a A |
| C46 | printf integer conversions print the exact decimal, octal and hexadecimal text | partial | `Printf.C46_text_partial` (pcq)<br>`Printf.C46_min_undefined` (pcq) | every format of literals, %%, d i o u x X c s n with any flags, width, precision and length modifier; violated for the least intmax_t, whose negation overflows (C46_min_undefined) |
| C47 | printf never writes outside its own scratch buffers | partial | `Printf.C47_scratch_partial` (pcq)<br>`Printf.C47_overruns` (pcq) | violated: DECIMAL_DIGITS evaluates to 1 (signed) and 2 (unsigned); every %d of two digits or more and every %u of three or more stores below its array; other conversions stay inside |
| C48 | printf %s honours the precision | partial | `Printf.C48_precision_partial` (pcq)<br>`Printf.C48_precision_overrun` (pcq)<br>`Printf.C46_text_partial` (pcq) | violated: for a misaligned string whose precision ends before the next multiple of 8 the whole string is printed (C48_precision_overrun); proved otherwise, with memory ending right behind the string |
| C49 | scanf leaves the first unmatched character unread | partial | `Scanf.C49_left_partial` (pcq)<br>`Scanf.C49_lost` (p)<br>`Scanf.C49_lost_literal` (p) | false in general: the character after an item or of a matching failure is taken from the stream and dropped (C49_lost, C49_lost_literal); at most one character is lost, and none when the input is exhausted or the last directive is an ordinary character or %c |
| C50 | fread/fwrite report full items | partial | `Stdio.C50_fread_partial` (pcq)<br>`Stdio.C50_fwrite_partial` (pq)<br>`Stdio.C50_size_zero_divides` (p)<br>`Stdio.C50_short_delivery_is_not_the_end` (p) | violated for item size 0 (division by zero) and for files that deliver less than asked for (fread stops and reports the end of the file); proved: exact transfer and indicators for one request |
| C51 | Paths resolve through the longest matching preopened directory | partial | `Wasi.C51_lookup_partial` (pcq)<br>`Wasi.C51_table` (pq)<br>`Wasi.C51_root_not_found` (pq)<br>`Wasi.C51_root_never_found` (pcq)<br>`Wasi.C51_dot_prefix_not_found` (pq) | violated for a preopened / and for names starting with ./; proved for the table of trimmed names |
| C52 | WASI errors map to the POSIX errno of the same name | partial | `Wasi.C52_errno_partial` (pq)<br>`Wasi.C52_unknown_reads_outside` (pq) | violated for numbers above 76: the table is read out of bounds |
| C53 | sbrk hands out disjoint growing regions | partial | `Process.C53_regions_partial` (pq)<br>`Process.C53_step` (pq)<br>`Process.C53_wraps` (none) | histories proved for memories of at most 2 GiB; above, brk + increment wraps (C53_wraps) |
| C54 | fmod is exact | proved | `Math.C54_fmod` (pcq)<br>`Math.C54_fmodf` (pcq)<br>`Math.C54_fmod_special` (pq) | all doubles and floats; no undefined shift on any path |
| C55 | nextafter returns the adjacent double | proved | `Math.C55_nextafter` (pcq)<br>`Math.C55_nextafterf` (pcq)<br>`Math.C55_nextafter_nan` (pcq) | neighbour in the order of all non-NaN patterns, including infinities |
| C56 | frexp decomposes exactly | proved | `Math.C56_frexp` (pcq)<br>`Math.C56_frexpf` (pcq)<br>`Math.C56_frexp_special` (p) | proved as stated |
| C57 | scalbn scales with a single rounding | proved | `Math.C57_scalbn` (pcq)<br>`Math.C57_scalbn_special` (pq)<br>`Math.C57_scalbnf` (pcq)<br>`Math.C57_scalbnf_special` (pq) | every integer n |
| C58 | ilogb/logb return the binary exponent | proved | `Math.C58_logb` (pcq)<br>`Math.C58_logbf` (pcq)<br>`Math.C58_logb_special` (none) | proved as stated |
| C59 | remquo reports a quotient of the right sign | partial | `Math.C59_remquo_violated` (pq)<br>`Math.C59_remquo_partial` (pcq)<br>`Math.C59_remquof_partial` (pcq) | the property is violated for negative divisors (the quotient has the sign of x); proved for the others, and the remainder and the low bits of the quotient for all |
| C60 | fma rounds once | partial | `Math.C60_fma_violated` (pq)<br>`Math.C60_fma_absorbs` (p)<br>`Math.C60_fma_zero_partial` (pcq)<br>`Math.C60_fma_far_partial` (pcq)<br>`Approx.C60_fma_near_partial` (pcq) | the property is violated: fma(1,1,-1) is -1/4; proved when an argument is zero and when the addend dominates and is not a power of two of the opposite sign; a few units in the last place when the product is at most 3/4 of the addend |
| C61 | lround rounds to nearest, halves away from zero | partial | `Math.C61_lround_violated` (pq)<br>`Math.C61_lround_partial` (pcq) | the property is violated exactly at +-0.49999999999999994; proved for all other finite doubles |
| C62 | nearbyintl rounds long doubles to integers | partial | `Quad.C62_nearbyintl_partial` (pcq)<br>`Quad.C62_nearbyintl_violated` (pcq)<br>`Quad.C62_nearbyintl_special` (pcq) | holds for long doubles that are doubles; fails beyond double precision, e.g. 2^60 + 1 (C62_nearbyintl_violated) |
| C63 | binary128 comparison is numeric order | proved | `Quad.C63_equal` (pcq)<br>`Quad.C63_less` (pcq)<br>`Quad.C63_greater` (pcq)<br>`Quad.C63_unordered` (pcq) | proved as stated |
| C64 | binary128 multiplication is correctly rounded | proved | `Quad.C64_mul` (pcq)<br>`Quad.C64_mul_nan` (pq)<br>`Quad.C64_mul_inf` (pq) | proved as stated |
| C65 | binary128 addition is correctly rounded | partial | `Quad.C65_add_partial` (pcq)<br>`Quad.C65_add_shifting_partial` (pcq)<br>`Quad.C65_add_undefined` (pcq)<br>`Quad.C65_sub_partial` (pcq)<br>`Quad.C65_add_nan` (pcq)<br>`Quad.C65_add_inf` (pq)<br>`Quad.C65_sub_misrounds` (pq) | operands of the same sign and exponent shift by 128, undefined in C (C65_add_undefined); correctly rounded otherwise, except that a power of two minus a number in the 114th binade below it is misrounded (C65_sub_misrounds) |
| C66 | float/double to long double is exact and truncation back rounds correctly | partial | `Quad.C66_extend_double` (pcq)<br>`Quad.C66_extend_float` (pcq)<br>`Quad.C66_trunc_float` (pcq)<br>`Quad.C66_trunc_double_partial` (pcq)<br>`Quad.C66_trunc_double_violated` (pcq)<br>`Quad.C66_roundtrip_double` (pcq)<br>`Quad.C66_roundtrip_float` (pcq) | all but long double to double, which is characterised exactly: wrong on ties below an even number and just below the normal range |
| C67 | truncl truncates toward zero | proved | `Quad.C67_truncl` (pcq) | proved as stated |
| C68 | strtod is correctly rounded | partial | `Decimal.C68_strtod_partial` (pcq)<br>`Decimal.C68_many_digits` (pcq)<br>`Decimal.C68_long_digits` (pcq) | proved for up to 20 digits with any exponent, up to 38 digits with \|exponent\| <= 54, and up to 4000 digits when the exponent relative to the first 38 is at most 54 in size and those are not odd and just below a midpoint (sequences up to 31000 characters); false for 21 digits with a large exponent (C68_many_digits) and for digits beyond the 38th deciding a midpoint (C68_long_digits) |
| C69 | strtod reports no conversion when there are no digits | partial | `Decimal.C69_none_partial` (pcq)<br>`Decimal.C69_exponent_alone` (pcq) | proved unless an exponent part follows the optional sign and point, where the exponent is consumed (C69_exponent_alone) |
| C70 | strtof is correctly rounded | partial | `Decimal.C70_strtof_partial` (pcq)<br>`Decimal.C70_twice` (pcq)<br>`Decimal.C70_forced` (pcq) | proved as for C68 unless the nearest double is a midpoint of floats and the value is not, where the value is rounded twice (C70_twice), and unless there are more than 38 digits and the nearest double ends in a one and 28 zeros, where the result may be two units off (C70_forced) |
| C71 | iswctype and towctrans decide exactly the named classes | proved | `Ctype.C71_iswctype` (pcq)<br>`Ctype.C71_unknown_name` (pcq)<br>`Ctype.C71_towctrans` (pcq) | proved as stated |
| C72 | String conversions never split a character and round-trip | proved | `Utf.C72_wcsrtombs` (pcq)<br>`Utf.C72_mbsrtowcs` (pcq)<br>`Utf.C72_string_roundtrip` (pcq) | proved as stated |
| C73 | asctime stays in its buffer and prints the standard line | proved | `Time.C73_asctime_bounds` (pcq)<br>`Time.C73_asctime_text` (pcq) | proved as stated |
| C74 | atoi family returns the value of the decimal prefix | partial | `Strtol.C74_atoi_partial` (pcq)<br>`Strtol.C74_min_undefined` (none) | INT_MIN/LONG_MIN/LLONG_MIN overflow |
| C75 | The heap starts above static data | partial | `Process.C75_heap_overlaps_data` (pcq) | the property is violated: crt1.c initialises the break to 1..256, below the static data; only the negation is proved |
| C76 | strxfrm and strcoll agree | proved | `Str.C76_collate` (pcq) | proved as stated |
| C77 | Output functions report failed writes | partial | `Stdio.C77_putc_fputs` (pcq)<br>`Stdio.C77_puts_hides_failure` (none) | violated by puts |
| C78 | ungetc returns the character pushed back | partial | `Stdio.C78_ungetc_result_partial` (pq)<br>`Stdio.C78_ungetc_result_not_converted` (none) | violated for arguments outside 0..255: the result is not converted |
| C79 | ftell reports and fseek restores the logical position | partial | `Stdio.C79_ftell_partial` (pcq)<br>`Stdio.C79_fseek` (pcq)<br>`Stdio.C79_return_to_mark` (pcq)<br>`Stdio.C79_ftell_clears_eof` (none)<br>`Stdio.C79_ftell_append_skips` (p) | violated: ftell clears the end-of-file indicator and moves append streams to their end |
| C80 | clearerr clears the two indicators and nothing else | partial | `Stdio.C80_clearerr_partial` (none)<br>`Stdio.C80_clearerr_forgets_append` (p) | violated: the append bit is cleared too |
| C81 | fopen mode strings have their standard meaning | proved | `Wasi.C81_fopen_mode` (pq) | proved as stated |
| C82 | Files are opened with the WASI rights of the operations needed | partial | `Wasi.C82_rights_partial` (pq)<br>`Wasi.C82_creation_asks_for_directories` (pq) | violated: __WASI_RIGHTS_PATH_CREATE_FILE has the bit of path_create_directory |
| C83 | fprintf reports every failed write | partial | `Printf.C83_fprintf_partial` (pcq) | for the formats of C46_text_partial |
| C84 | printf pads characters and strings to the field width | partial | `Printf.C84_width_ignored` (pcq)<br>`Printf.C46_text_partial` (pcq) | violated: the field width is ignored by %c and %s (C84_width_ignored); proved when the text is as wide as the field |
| C85 | asprintf allocates exactly the text | partial | `Printf.C85_asprintf_partial` (pcq) | for the formats of C46_text_partial |
| C86 | printf supports the exponent conversions | partial | `Printf.C86_no_exponent_conversions` (pq) | the property is violated: the conversions are missing and the call returns -2; only the negation is proved |
| C87 | nexttoward moves toward a long double | proved | `Math.C87_nexttoward` (pcq)<br>`Math.C87_nexttowardf` (pcq)<br>`Math.C87_nexttoward_nan` (pcq) | long double conversions and comparisons are taken as exact |
| C88 | remainder is exact | proved | `Math.C88_remainder` (pcq)<br>`Math.C88_remainderf` (pcq)<br>`Math.C88_remainder_special` (pcq) | proved as stated |
| C89 | llround, lroundf and llroundf round halves away from zero | proved | `Math.C89_llround` (pcq)<br>`Math.C89_lroundf` (pcq)<br>`Math.C89_llroundf` (pcq) | proved as stated |
| C90 | round and roundf return the nearest integer | proved | `Math.C90_round` (pcq)<br>`Math.C90_roundf` (pcq)<br>`Math.C90_round_special` (pq) | proved as stated |
| C91 | lrint and llrint round halves to even | proved | `Math.C91_lrint` (pcq)<br>`Math.C91_lrintf` (pcq) | rint itself is a wasm instruction |
| C92 | modf splits exactly | proved | `Math.C92_modf` (pcq)<br>`Math.C92_modf_inf` (pq) | proved as stated |
| C93 | fmax, fmin and fdim | proved | `Math.C93_fmax` (pq)<br>`Math.C93_fmax_nan` (p)<br>`Math.C93_fdim` (pcq) | proved as stated |
| C94 | long double to integer conversion truncates | partial | `Quad.C94_to_int` (pcq)<br>`Quad.C94_to_unsigned` (pcq)<br>`Quad.C94_to_llong` (pq)<br>`Quad.C94_to_ullong` (pq)<br>`Quad.C94_to_u128` (pq)<br>`Quad.C94_to_i128_partial` (pcq)<br>`Quad.C94_least_undefined` (pq) | conversion of -2^127 to __int128 overflows (C94_least_undefined); all others proved |
| C95 | ldexpl scales with a single rounding | proved | `Quad.C95_ldexpl` (pcq)<br>`Quad.C95_ldexpl_special` (pq) | proved as stated |
| C96 | nexttowardl returns the adjacent long double | proved | `Quad.C96_nexttowardl` (pcq)<br>`Quad.C96_nexttowardl_nan` (pcq) | proved as stated |
| C97 | binary128 division is correctly rounded | partial | `Quad.C97_div_nan_partial` (pq)<br>`Quad.C97_div_special_partial` (pq)<br>`Quad.C97_div_violated` (p) | special operands proved; finite quotients are misrounded for some operands (C97_div_violated) |
| C98 | sqrtl is correctly rounded | partial | `Quad.C98_sqrt_nan_partial` (pq)<br>`Quad.C98_sqrt_special_partial` (pq)<br>`Quad.C98_sqrt_violated` (p) | special operands proved; roots of numbers near 1 may be off by more than 100 units in the last place (C98_sqrt_violated) |
| C99 | endptr points after the longest number | partial | `Decimal.C99_end_partial` (pcq)<br>`Decimal.C99_point_left` (pcq) | proved for every decimal except zeros with a final point, whose point is left (C99_point_left); hexadecimal forms not covered |
| C100 | inf and infinity are converted | proved | `Decimal.C100_infinite` (pcq) | proved as stated |
| C101 | nan and nan(tag) are converted | partial | `Decimal.C101_nan_partial` (pcq)<br>`Decimal.C101_letters` (pcq) | values proved for every tag, endptr for numeric tags; other tags are left (C101_letters) |
| C102 | Number parsing stays inside its buffers | partial | `Decimal.C102_room_partial` (pcq)<br>`Decimal.C102_overflow` (pcq) | proved for decimal numbers of at most 4000 digits; false beyond (C102_overflow: the 256-limb buffer overflows) |
| C103 | scanf converts what the standard says | partial | `Scanf.C103_scanf_partial` (pcq)<br>`Scanf.C103_zero` (p)<br>`Scanf.C103_percent` (p)<br>`Scanf.C103_percent_space` (p)<br>`Scanf.C103_long` (p)<br>`Scanf.C103_long_real` (p)<br>`Scanf.C103_chars` (p)<br>`Scanf.C103_suppressed` (p)<br>`Scanf.C103_min` (p)<br>`Scanf.C103_incomplete` (p)<br>`Scanf.C103_infi` (p)<br>`Scanf.C103_pushed` (p) | proved for all formats and inputs except the cases where the library differs from the standard, each with a witness: numbers of more than 127 characters, integers outside 64 bits and -2^63, zeros and integer failures that use up the field width, partial %c, %%, incomplete floating-point numbers, input failure after suppressed conversions only |
| C104 | scanf is safe for every format and input | partial | `Scanf.C104_any_partial` (pcq)<br>`Scanf.C104_width` (p) | missing: signed conversions of inputs with a minus sign, where -2^63 is undefined (C103_min), and field widths of ten digits or more, which overflow (C104_width) |
| C105 | Wide string searches | proved | `Wide.C105_find` (pq)<br>`Wide.C105_wmemchr` (pcq)<br>`Wide.C105_spans` (pq)<br>`Wide.C105_wcsstr` (pcq) | proved as stated |
| C106 | Wide string writes stay inside their destination | proved | `Wide.C106_copy` (pcq)<br>`Wide.C106_wcsncpy` (pcq)<br>`Wide.C106_wcsncat` (pcq)<br>`Wide.C106_wmemset` (pcq)<br>`Wide.C106_wcsxfrm` (pcq)<br>`Wide.C106_wmemmove` (pcq) | proved as stated |
| C107 | Wide comparisons order by wchar_t | proved | `Wide.C107_wcscmp` (pcq)<br>`Wide.C107_wcsncmp` (pcq)<br>`Wide.C107_wmemcmp` (pcq) | proved as stated |
| C108 | wcstok returns the tokens in order | proved | `Wide.C108_wcstok` (pcq) | proved as stated |
| C109 | wcstol converts like strtol | partial | `Wide.C109_signed_partial` (pcq)<br>`Wide.C109_unsigned_partial` (pcq)<br>`Wide.C109_none` (pcq)<br>`Wide.C109_long` (p) | proved when the subject sequence ends within the first 127 characters; beyond, the string is cut (C109_long: 127 zeros before a 1, 127 blanks before a 1); LONG_MIN and LLONG_MIN as for C32 |
| C110 | wcstod converts like strtod | partial | `Wide.C110_wcstod_partial` (pcq)<br>`Wide.C110_wcstof_partial` (pcq)<br>`Wide.C110_infinite` (pcq)<br>`Wide.C110_long` (p) | proved as for C68, C70, C99 and C100 when the subject sequence ends within the first 255 characters; beyond, the string is cut (C110_long) |
| C111 | fgetwc decodes the file | partial | `Wio.C111_fgetwc` (pcq)<br>`Wio.C111_text` (pcq)<br>`Wio.C111_end` (pcq)<br>`Wio.C111_cut` (pcq)<br>`Wio.C111_read_error` (pq) | decoding proved for every file behaviour; violated at the end of a file inside a character (end indicator instead of an encoding error, C111_cut) and by read errors (the end indicator is set too, C111_read_error) |
| C112 | fgetws reads one line | partial | `Wio.C112_fgetws` (pcq)<br>`Wio.C112_line` (pcq)<br>`Wio.C112_error_hidden` (p) | violated after an encoding error inside a line: the part before it is returned (C112_error_hidden) |
| C113 | fputwc and fputws write UTF-8 | proved | `Wio.C113_fputws` (pcq)<br>`Wio.C113_fputwc` (pcq)<br>`Wio.C113_roundtrip` (pcq) | proved as stated |
| C114 | ungetwc pushes back one character | partial | `Wio.C114_ungetwc` (p)<br>`Wio.C114_rejected` (none)<br>`Wio.C114_clearerr` (none)<br>`Wio.C114_clearerr_lost` (p)<br>`Wio.C114_fseek_kept` (p) | violated by clearerr, which forgets the character, and by fseek, which keeps it |
| C115 | The orientation of a stream is fixed once | partial | `Wio.C115_fixed` (pq)<br>`Wio.C115_set` (pq)<br>`Wio.C115_report` (p)<br>`Wio.C115_bytes` (p) | violated by the byte functions, which never give a stream byte orientation (C115_bytes) |
| C116 | swprintf stores the text | partial | `Wio.C116_text_partial` (pcq)<br>`Wio.C116_malformed` (pcq)<br>`Wio.C116_bad_format` (pcq)<br>`Wio.C116_empty_buffer` (pq)<br>`Wio.C116_no_memory` (pcq)<br>`Wio.C116_truncated` (pcq)<br>`Wio.C116_cut` (pcq)<br>`Wio.C116_precision` (pcq) | exact when the text fits, for the formats of C46; violated by texts that do not fit (cap - 1 is returned instead of a negative value, C116_truncated), and by precisions, which count bytes: a character cut by one disappears (C116_cut, C116_precision) |
| C117 | fwprintf writes the text | partial | `Wio.C117_fwprintf_partial` (pcq)<br>`Wio.C117_bad_format` (pcq)<br>`Wio.C117_counts_bytes` (pq)<br>`Wio.C117_malformed_passed` (pcq) | for the formats of C46; the value returned counts bytes (C117_counts_bytes) and malformed strings are passed on (C117_malformed_passed) |
| C118 | printf rounds decimals correctly | partial | `Printf.C118_large_partial` (pcq)<br>`Printf.C118_moderate_partial` (pcq)<br>`Printf.C118_small_partial` (pcq)<br>`Printf.C118_small_exact_partial` (pcq)<br>`Printf.C118_nonfinite` (pcq)<br>`Printf.C118_wrong` (pq) | exact from 2^64 on; error below 1/2 + 2^-49 units in the last place from 2^-8 to 2^64, correctly rounded there without decimals; error at most 0.55 units below 2^-8 whenever the call reads no limb that was not written, exact for zeros and with 1074 decimals or more; violated next to ties: the double 0.005 is above 0.005 but %.2f prints 0.00 (C118_wrong) |
| C119 | %f stays within its scratch arrays | partial | `Printf.C119_scratch_partial` (pcq)<br>`Printf.C119_overruns` (pcq)<br>`Printf.C119_zero_overruns` (pcq)<br>`Printf.C119_small_overruns` (pq) | no overrun from 2^-8 to 99 and from 2^64 on; violated by every number from 100 to 2^64 (C119_overruns), by zeros (C119_zero_overruns) and by others below 2^-8, such as 0.001 (C119_small_overruns) |
| C120 | %a prints a double exactly | partial | `Printf.C120_exact` (pcq)<br>`Printf.C120_padded` (pcq)<br>`Printf.C120_rounded_partial` (pcq)<br>`Printf.C120_nonfinite` (pcq)<br>`Printf.C120_lost_zeros` (pq) | violated by zeros and subnormal numbers with a precision from 1 to 12: the digits are not filled up with zeros on the left, %.3a of 0x0.01p-1022 prints 0x1.0p-1022 (C120_lost_zeros) |
| C121 | %La prints a long double exactly | partial | `Printf.C121_exact` (pcq)<br>`Printf.C121_padded` (pcq)<br>`Printf.C121_rounded_partial` (pcq)<br>`Printf.C121_nonfinite` (pcq)<br>`Printf.C121_lost_zeros` (pq) | violated as C120 is, with precisions from 1 to 27 (C121_lost_zeros) |
| C122 | printf knows all floating-point conversions | partial | `Printf.C122_no_exponents` (pcq)<br>`Printf.C122_no_long_double` (pcq) | violated by all of them: the call ends there and returns -2 (C122_no_exponents, C122_no_long_double) |
| C123 | Floating-point numbers convert to 128-bit integers exactly | partial | `Int128.C123_signed_partial` (pcq)<br>`Int128.C123_unsigned` (pcq)<br>`Int128.C123_min_is_undefined` (none) | violated by -2^127, which __int128 can hold: the shift of the signed upper half overflows (C123_min_is_undefined) |
| C124 | Absolute values and quotients of integers | proved | `Arith.C124_abs` (pcq)<br>`Arith.C124_div` (pcq) | proved as stated |
| C125 | Integer powers | partial | `Arith.C125_exact` (pcq)<br>`Arith.C125_reciprocal_partial` (pcq)<br>`Arith.C125_order` (pcq)<br>`Arith.C125_min_is_undefined` (pq) | negative exponents are covered if the reciprocal of the base is representable; violated by the exponent INT_MIN, whose negation overflows even if the base is 1 (C125_min_is_undefined) |
| C126 | Complex products of infinities are infinite | proved | `Cplx.C126_infinite` (pcq)<br>`Cplx.C126_exact` (pcq) | proved as stated |
| C127 | Complex quotients of infinities and zeros | partial | `Cplx.C127_infinite_dividend` (pcq)<br>`Cplx.C127_zero_divisor` (pcq)<br>`Cplx.C127_infinite_divisor_partial` (pcq)<br>`Cplx.C127_nan` (p) | violated by (DBL_MAX + i DBL_MAX) / (inf + i inf), which has a NaN part because the numerator overflows; proved if it does not |
| C128 | Complex quotients do not overflow without need | partial | `Cplx.C128_power_partial` (pcq)<br>`Cplx.C128_overflow` (p) | violated by (DBL_MAX + i DBL_MAX) / (1 + i); proved for divisors that are real powers of two |
| C129 | Complex square roots | partial | `Cplx.C129_infinite` (pcq)<br>`Cplx.C129_zero_nan` (pcq)<br>`Cplx.C129_conjugate` (pcq)<br>`Cplx.C129_half_plane` (pcq)<br>`Cplx.C129_real_partial` (pcq)<br>`Cplx.C129_violated` (none) | violated for large and small numbers: the root of 2^600 is infinite, that of i 2^-600 is i times infinity, that of 2^-1074 has a NaN part; real numbers are right from 2^-511 to 2^511 |
| C130 | The real part of the complex logarithm | partial | `Cplx.C130_special` (pcq)<br>`Cplx.C130_violated` (pcq) | violated: away from the unit circle the logarithm of the reduced modulus is added twice, and squares overflow; only infinities, zeros and NaNs are right |
| C131 | Projection and conjugation | proved | `Cplx.C131_cproj` (pq)<br>`Cplx.C131_conj` (pq) | proved as stated |
| C132 | fclose closes once and says what went wrong | partial | `Life.C132_fclose_partial` (pq)<br>`Life.C132_errno_lost` (pq)<br>`Life.C132_standard` (pq) | violated: errno is always EPERM after a failure, and a standard stream is passed to free; the rest is proved |
| C133 | No descriptor is leaked or closed twice | partial | `Life.C133_step` (pcq)<br>`Life.C133_balance` (pcq)<br>`Life.C133_all_closed` (pcq)<br>`Life.C133_no_memory` (pq)<br>`Life.C133_freopen_standard` (pq)<br>`Life.C133_append_forgotten` (pq) | proved for every sequence of calls that has defined behaviour; undefined are fopen when malloc fails, and fclose or a failing freopen of a standard stream |
| C134 | fgetpos and fsetpos | partial | `Life.C134_roundtrip_partial` (pcq)<br>`Life.C134_large` (pcq)<br>`Life.C134_append_skips` (p)<br>`Life.C134_pushback_kept` (p) | violated from 2 GiB on, on streams opened for appending, and by a character pushed back with ungetwc |
| C135 | remove and rename | proved | `Life.C135_remove` (pq)<br>`Life.C135_rename` (pq)<br>`Life.C135_outside` (pq) | for hosts that say EISDIR when asked to unlink a directory |
| C136 | Error messages tell errors apart | partial | `Life.C136_distinct` (pcq)<br>`Life.C136_known_partial` (none)<br>`Life.C136_unnamed` (p) | violated: 26 of the errors the host may report have no message |
| C137 | The multibyte functions without a state have no memory | proved | `Utf.C137_no_memory` (pcq)<br>`Utf.C137_wctomb` (pcq)<br>`Utf.C137_invalid_bytes` (pcq)<br>`Utf.C137_invalid_wide` (pcq)<br>`Utf.C137_strings` (pcq) | proved as stated |
| C138 | Hexadecimal floating-point strings | partial | `Decimal.C138_strtod_partial` (pcq)<br>`Decimal.C138_strtof_partial` (pcq)<br>`Decimal.C138_strtold_partial` (pcq)<br>`Decimal.C138_prefix_partial` (pcq)<br>`Decimal.C138_twice` (pcq)<br>`Decimal.C138_stray` (pcq) | violated: subnormal results of more digits than the type has are rounded twice, an exponent after 0x without digits is consumed, the end of 0x0. is one short; correct rounding is proved for all other strings of up to 7000 characters (3800 for long double) |
| C139 | %a and strtod are inverse | proved | `Trip.C139_double` (pcq)<br>`Trip.C139_long` (pcq) | for widths up to 6000 (3000 for long double) |
| C140 | Printed integers are read back | partial | `Trip.C140_signed_partial` (pcq)<br>`Trip.C140_unsigned` (pcq) | all values but the least of intmax_t, long and int, which the parsers overflow on (C32_min_undefined); zero with the precision 0 has no digits |
| C141 | hypotf is correctly rounded | proved | `Hyp.C141_hypotf` (pcq)<br>`Hyp.C141_exact` (pcq)<br>`Hyp.C141_symmetric` (pcq)<br>`Hyp.C141_special` (pq) | against the real square root of Mathlib |
| C142 | Clocks are converted without loss or overflow | proved | `Host.C142_clock` (pcq)<br>`Host.C142_timespec_get` (pcq)<br>`Host.C142_time_partial` (pcq) | time: host errors that WASI does not define are excluded (C52 shows that they read outside a table) |
| C143 | stat, lstat and fstat describe the file the host describes | partial | `Host.C143_fields_partial` (pcq)<br>`Host.C143_stat_partial` (pcq)<br>`Host.C143_lstat_partial` (pcq)<br>`Host.C143_fstat_partial` (pcq)<br>`Host.C143_violated` (p) | false for sizes from 2^63 and link counts from 2^32, which are truncated (C143_violated); the directory table has the defects of C51 |
| C144 | difftime is the exact difference rounded once | partial | `Host.C144_difftime_partial` (pcq)<br>`Host.C144_violated` (pcq) | true for times up to 2^53; beyond, both operands are rounded before the subtraction and neighbouring times differ by 0 |
| C145 | wcsftime is strftime for wide characters | partial | `Host.C145_fits_partial` (pcq)<br>`Host.C145_too_long` (pcq)<br>`Host.C145_failure` (pcq)<br>`Host.C145_empty_violated` (pcq) | an empty text (format empty or percent Z) leaves the array without terminator (C145_empty_violated) |
| C146 | setlocale accepts exactly the C locale | proved | `Host.C146_setlocale` (pcq) | proved as stated |
| C147 | int and unsigned convert to long double exactly | proved | `Quad.C147_unsigned` (pcq)<br>`Quad.C147_signed` (pcq) | proved as stated |
| C148 | swscanf scans wide text as scanf scans bytes | partial | `Wscan.C148_text_partial` (pcq)<br>`Wscan.C148_ascii_partial` (pcq)<br>`Wscan.C148_failure` (pcq)<br>`Wscan.C148_violated` (p) | all text for formats of white space, ordinary characters, numbers and %s without width, ASCII text for all formats; false for %c, %n, %[ and widths on other text, and for %ls (C148_violated); what C103 leaves out is left out here too |
| C149 | fwscanf scans the stream and leaves the rest of it | partial | `Wscan.C149_text_partial` (pcq)<br>`Wscan.C149_left_partial` (pcq)<br>`Wscan.C149_lost` (p)<br>`Wscan.C149_failure` (pcq) | as C148; the character that ends an item is lost (C149_lost), at most one for ASCII text |
| C150 | expf is accurate | partial | `Approx.C150_expf` (pcq)<br>`Approx.C150_expf_special` (none)<br>`Approx.C150_expf_range` (pcq)<br>`Approx.C150_nan_violated` (none) | proved for all finite and infinite floats; false for NaN, whose conversion to int64_t is undefined in C (C150_nan_violated) |
| C151 | exp2f is accurate and exact at integers | proved | `Approx.C151_exp2f` (pcq)<br>`Approx.C151_exp2f_exact` (pcq)<br>`Approx.C151_exp2f_special` (none) | all finite floats, hard-coded results included; for NaN see C150 |
| C152 | expm1f is accurate near zero and everywhere | proved | `Approx.C152_expm1f` (pcq)<br>`Approx.C152_expm1f_sign` (pcq)<br>`Approx.C152_expm1f_special` (none) | all finite floats and infinities; for NaN see C150 |
| C153 | sinhf, coshf and tanhf are accurate | proved | `Approx.C153_sinhf` (pcq)<br>`Approx.C153_coshf` (pcq)<br>`Approx.C153_tanhf` (pcq)<br>`Approx.C153_range` (pcq)<br>`Approx.C153_special` (none) | all finite floats and infinities; for NaN see C150 |
| C154 | logf is accurate | proved | `Approx.C154_logf` (pcq)<br>`Approx.C154_logf_sign` (pcq)<br>`Approx.C154_logf_special` (pcq) | all positive finite floats, hard-coded results included, and all special values |
| C155 | log2f and log10f are accurate, and exact where possible | proved | `Approx.C155_log2f` (pcq)<br>`Approx.C155_log10f` (pcq)<br>`Approx.C155_exact` (pcq)<br>`Approx.C155_sign` (pcq)<br>`Approx.C155_special` (pcq) | as C154 |
| C156 | log1pf is accurate near zero and everywhere | proved | `Approx.C156_log1pf` (pcq)<br>`Approx.C156_log1pf_sign` (pcq)<br>`Approx.C156_log1pf_special` (pq) | all floats |
| C157 | asinhf, acoshf and atanhf are accurate | proved | `Approx.C157_asinhf` (pcq)<br>`Approx.C157_acoshf` (pcq)<br>`Approx.C157_atanhf` (pcq)<br>`Approx.C157_sign` (pcq)<br>`Approx.C157_special` (pcq) | all floats |
| C158 | cbrtf is accurate | proved | `Approx.C158_cbrtf` (pcq)<br>`Approx.C158_exact` (pcq)<br>`Approx.C158_odd` (pq)<br>`Approx.C158_special` (pq) | all floats |
| C159 | atanf is accurate | proved | `Approx.C159_atanf` (pcq)<br>`Approx.C159_atanf_range` (pcq)<br>`Approx.C159_atanf_special` (pq) | all floats |
| C160 | asinf and acosf are accurate | proved | `Approx.C160_asinf` (pcq)<br>`Approx.C160_acosf` (pcq)<br>`Approx.C160_range` (pcq)<br>`Approx.C160_special` (pcq) | all floats, hard-coded results included |
| C161 | sinf and cosf are accurate for all floats | proved | `Approx.C161_sinf` (pcq)<br>`Approx.C161_cosf` (pcq)<br>`Approx.C161_range` (pcq)<br>`Approx.C161_special` (pq) | all floats, with the full argument reduction |
| C162 | tanf is accurate for all floats, poles included | proved | `Approx.C162_tanf` (pcq)<br>`Approx.C162_range` (pcq)<br>`Approx.C162_special` (pq)<br>`Approx.C162_table` (pq) | all floats, with the full argument reduction |
| C163 | powf handles all special cases of C11 F.10.4.4 | proved | `Approx.C163_one` (pcq)<br>`Approx.C163_nan` (pcq)<br>`Approx.C163_zero_base` (pcq)<br>`Approx.C163_infinite_base` (pcq)<br>`Approx.C163_domain` (pcq)<br>`Approx.C163_infinite_exponent` (pcq) | all floats |
| C164 | powf is correctly rounded | partial | `Approx.C164_powf_partial` (pcq)<br>`Approx.C164_powf_exact_partial` (pcq)<br>`Approx.C164_powf_violated` (pcq)<br>`Approx.C164_powf_square_violated` (pcq) | correctly rounded for all results between 2^-126 and 2^127 at a relative distance above 2^-38 from the midpoints of floats, hence exact whenever such a power is a float, and for results above 2^131 or below 2^-161; violated elsewhere, because the second attempt relies on fma, which is wrong under cancellation (C60): powf(2, 127) is 0.71 times 2^127, powf(4097, 2) is 13052638 instead of 16785408 |
| C165 | atan2f and cargf handle all special cases of C11 F.10.1.4 | proved | `Approx.C165_zero` (pcq)<br>`Approx.C165_axis` (pcq)<br>`Approx.C165_infinite` (pcq)<br>`Approx.C165_constants` (pcq)<br>`Approx.C165_nan` (p) | all floats |
| C166 | atan2f and cargf are correctly rounded | partial | `Approx.C166_atan2f_partial` (pcq)<br>`Approx.C166_range` (pcq)<br>`Approx.C166_atan2f_violated` (pcq) | for all finite arguments but for y = 0 (C165) the result is the argument within a relative error of 2^-39, rounded, hence one of the two floats around it, with the sign of y and not above the float next to π; correct rounding is violated in the third quadrant, where the second attempt adds the angle to π instead of subtracting it: atan2f is not odd in y there |
| C167 | csinhf, ccoshf, csinf and ccosf are accurate in both parts | proved | `Approx.C167_csinhf` (pcq)<br>`Approx.C167_ccoshf` (pcq)<br>`Approx.C167_csinf` (pcq)<br>`Approx.C167_ccosf` (pcq) | all finite arguments, however large |
| C168 | csinhf and ccoshf handle the special cases of C11 Annex G | partial | `Approx.C168_infinite` (pcq)<br>`Approx.C168_no_angle_partial` (pcq)<br>`Approx.C168_nan_violated` (p) | proved for all real parts but NaN; a NaN as the real part reaches the conversion of a NaN to an integer in expm1f_ (as C150), undefined behaviour, so that the last clause is violated |
| C169 | ctanhf and ctanf are accurate in both parts | proved | `Approx.C169_ctanhf` (pcq)<br>`Approx.C169_ctanf` (pcq) | all finite arguments; the bound adds the errors of the sine, the cosine and the denominator, so that the result may be the second float next to the exact one |
| C170 | ctanhf and ctanf handle the special cases of C11 Annex G | partial | `Approx.C170_infinite_partial` (pcq)<br>`Approx.C170_no_angle_partial` (pcq)<br>`Approx.C170_zero_violated` (p)<br>`Approx.C170_nan_violated` (p) | violated for a negative zero angle, which gives a positive zero because its sine is computed as -0 plus a correction of +0, and for a NaN as the real part (undefined behaviour in expm1f_, as C150) |
| C171 | clogf is the complex logarithm | partial | `Approx.C171_infinite` (pcq)<br>`Approx.C171_zero` (pcq)<br>`Approx.C171_nan` (pcq)<br>`Approx.C171_arg_partial` (pcq)<br>`Approx.C171_clogf_violated` (pcq) | the special cases and the imaginary part are proved; the real part is violated: clogf(1+i) has the real part 0, clogf(2) half the logarithm of two, because the double-double product relies on fma, which is wrong under cancellation (C60) |
| C172 | csqrtf is the principal square root | partial | `Approx.C172_special_partial` (pcq)<br>`Approx.C172_csqrtf_partial` (pcq)<br>`Approx.C172_csqrtf_violated` (pcq) | the special cases are proved, and correct rounding at finite numbers of norm at least 2^-75 whose root has parts that are not subnormal and lie farther than 2^-38 (relatively) from midpoints of floats; violated elsewhere: csqrtf(1) is 1.159, because the refinement of the root relies on fma, which is wrong under cancellation (C60) |
| C173 | catanf and catanhf handle the special cases of C11 Annex G | proved | `Approx.C173_swap` (p)<br>`Approx.C173_symmetry` (pq)<br>`Approx.C173_infinite` (pcq)<br>`Approx.C173_pole` (pcq)<br>`Approx.C173_nan` (pcq) | the accuracy at finite numbers is not part of the property |
| C174 | casinhf, casinf, cacoshf and cacosf handle the special cases of C11 Annex G | proved | `Approx.C174_asin_swap` (none)<br>`Approx.C174_asinh_symmetry` (p)<br>`Approx.C174_asinh_infinite` (pcq)<br>`Approx.C174_asinh_nan` (pcq)<br>`Approx.C174_acos` (pcq)<br>`Approx.C174_acosh_infinite` (pcq)<br>`Approx.C174_acosh_nan` (pcq)<br>`Approx.C174_zero` (pq) | the accuracy at finite numbers is not part of the property |
