{"id": "C01", "title": "ctype classification is exactly ASCII", "statement": "For every int argument c on which the code does not overflow signed arithmetic (EOF, 0..255 and every other int except the 97 smallest), isalpha/isdigit/isalnum/isupper/islower/isspace/isblank/iscntrl/isprint/isgraph/ispunct/isxdigit return nonzero exactly when c is the ASCII code of a character of that class in the C locale.", "quantifier": "every one of the 2^32 int arguments, each of the twelve functions", "why_tests_cant": "the functions are branch-free bit tricks with unsigned wrap-around; a sampled test cannot exclude one aliasing argument out of 2^32", "anchors": ["src/ctype/isalpha.c:isalpha", "src/ctype/isdigit.c:isdigit", "src/ctype/isspace.c:isspace", "src/ctype/isprint.c:isprint", "src/ctype/ispunct.c:ispunct", "src/ctype/isxdigit.c:isxdigit"]}
{"id": "C02", "title": "Case mapping is total, idempotent and only touches letters", "statement": "toupper maps 'a'..'z' to 'A'..'Z' and every other int to itself; tolower is the mirror image; on letters they are mutually inverse.", "quantifier": "every int argument", "why_tests_cant": "aliasing of a bit trick at an untested int cannot be excluded by sampling", "anchors": ["src/ctype/toupper.c", "src/ctype/tolower.c"]}
{"id": "C03", "title": "memmove copies as if through a temporary", "statement": "After memmove(dst, src, n) the n bytes at dst equal the n bytes that were at src before the call, and no other byte of memory changed, whatever the overlap.", "quantifier": "every memory content, every pair of in-range addresses (any overlap, any alignment), every n", "why_tests_cant": "correctness depends on copy direction, overlap distance and word size chosen from the trailing zero bits of n; the combinations are unbounded", "anchors": ["src/string/memmove.c", "src/string/copy.h"]}
{"id": "C04", "title": "memcpy copies exactly n bytes", "statement": "After memcpy(dst, src, n) with disjoint ranges the n bytes at dst equal the n bytes at src and every other byte is unchanged.", "quantifier": "every memory, every disjoint pair of ranges, every n including 0", "why_tests_cant": "the element size is derived from the lowest set bit of n; all n matter, including 0 and huge n", "anchors": ["src/string/memcpy.c", "src/string/copy.h"]}
{"id": "C05", "title": "strlen finds the first NUL for every alignment and never leaves the string's words", "statement": "strlen(s) returns the distance to the first zero byte, and reads only bytes lying in 8-byte aligned words that contain a byte of the string or its terminator (so it never traps when the string is in memory).", "quantifier": "every memory content, every string address and length", "why_tests_cant": "the scan tests eight bytes at once with a carry trick (0x7EFEFEFEFEFEFEFF) whose false positives and negatives depend on all 2^64 word values", "anchors": ["src/string/strlen.c"]}
{"id": "C06", "title": "strchr returns the first occurrence", "statement": "strchr(s,c) returns the address of the first byte equal to (char)c in the string including its terminator, or NULL when there is none.", "quantifier": "every memory content, alignment, string and every int c", "why_tests_cant": "word-at-a-time test over 2^64 word values and 2^8 search bytes", "anchors": ["src/string/strchr.c"]}
{"id": "C07", "title": "memchr never looks past its length", "statement": "memchr(s,c,n) returns the first of the n bytes equal to (unsigned char)c or NULL; its answer does not depend on bytes outside [s,s+n).", "quantifier": "every memory, address, alignment, c and n", "why_tests_cant": "requires all alignments and lengths together with adversarial bytes beyond the range", "anchors": ["src/string/memchr.c"]}
{"id": "C08", "title": "memset writes exactly n bytes", "statement": "After memset(p,c,n) the n bytes at p equal (unsigned char)c and no other byte has changed.", "quantifier": "every memory, address, alignment, c and n", "why_tests_cant": "frame condition over all of memory for all alignments and lengths", "anchors": ["src/string/memset.c"]}
{"id": "C09", "title": "String comparison is the lexicographic order on unsigned bytes", "statement": "memcmp, strcmp and strncmp return a value whose sign is the lexicographic order of the compared bytes taken as unsigned, stopping at the terminator or at n; hence they are total orders.", "quantifier": "every pair of byte sequences and every n", "why_tests_cant": "order laws (antisymmetry, transitivity) quantify over all pairs and triples", "anchors": ["src/string/memcmp.c", "src/string/strcmp.c", "src/string/strncmp.c"]}
{"id": "C10", "title": "strcpy/strcat build exactly the expected string", "statement": "strcpy(dst,src) writes the bytes of src and its terminator at dst and nothing else; strcat appends them at the terminator of dst; both return dst.", "quantifier": "every memory with disjoint source and destination strings of any length", "why_tests_cant": "frame condition and unbounded string length", "anchors": ["src/string/strcpy.c", "src/string/strcat.c"]}
{"id": "C11", "title": "strncpy copies at most n bytes and zero-pads", "statement": "strncpy(dst,src,n) writes exactly n bytes: the bytes of src up to n or its terminator, then zeros, and nothing else.", "quantifier": "every memory, string, alignment and n", "why_tests_cant": "padding goes through memset; all alignments times lengths", "anchors": ["src/string/strncpy.c", "src/string/memset.c"]}
{"id": "C12", "title": "strncat always terminates its result", "statement": "strncat(dst,src,n) appends at most n bytes of src and then a terminating NUL.", "quantifier": "every pair of strings and every n", "why_tests_cant": "the failing case needs n not larger than the source length and non-zero memory behind the destination", "anchors": ["src/string/strncat.c"]}
{"id": "C13", "title": "strspn, strcspn and strpbrk measure maximal prefixes", "statement": "strspn(s,a) is the length of the longest prefix of s made of bytes of a, strcspn(s,a) of bytes not in a, and strpbrk returns the address after that latter prefix or NULL at the terminator.", "quantifier": "every pair of strings", "why_tests_cant": "sets of bytes and prefixes are unbounded", "anchors": ["src/string/strspn.c", "src/string/strcspn.c", "src/string/strpbrk.c"]}
{"id": "C14", "title": "strrchr returns the last occurrence", "statement": "strrchr(s,c) returns the address of the last byte equal to (char)c including the terminator, or NULL.", "quantifier": "every string and c", "why_tests_cant": "all strings and positions", "anchors": ["src/string/strrchr.c"]}
{"id": "C15", "title": "strtok_r splits a string into its maximal delimiter-free runs", "statement": "Repeated calls of strtok_r return, in order, exactly the maximal non-empty runs of non-delimiter bytes of the original string, then NULL forever.", "quantifier": "every string, every delimiter set, the whole sequence of calls", "why_tests_cant": "statement about an unbounded call history with in-place mutation", "anchors": ["src/string/strtok.c:strtok_r", "src/string/strtok.c"]}
{"id": "C16", "title": "strstr/memmem find the first occurrence", "statement": "strstr(h,n) returns the address of the leftmost occurrence of n in h, or NULL if there is none (and h for empty n).", "quantifier": "every haystack and every needle", "why_tests_cant": "two-way string matching skips positions using a critical factorization; soundness of every skip needs the periodicity theory, not samples", "anchors": ["src/string/strstr.c", "src/string/strstr.c:memmem"]}
{"id": "C17", "title": "128-bit multiplication is exact modulo 2^128", "statement": "__multi3(a,b) returns a*b modulo 2^128 and the widening products return the full 128- and 256-bit products.", "quantifier": "all 2^256 operand pairs", "why_tests_cant": "carry propagation over the operand space cannot be enumerated", "anchors": ["src/soft/integer/multi3.c", "src/soft/integer/umulditi3.h", "src/soft/integer/umulti4.h"]}
{"id": "C18", "title": "128-bit unsigned division is exact", "statement": "__udivti3/__umodti3 return the quotient and remainder: a = q*b + r with r < b, for every nonzero b.", "quantifier": "all operand pairs with nonzero divisor", "why_tests_cant": "the estimate-and-correct step of Knuth division fails only on extremely rare operands", "anchors": ["src/soft/integer/udivmodti4.h", "src/soft/integer/udivti3.c", "src/soft/integer/umodti3.c"]}
{"id": "C19", "title": "128-bit signed division truncates toward zero", "statement": "__divti3/__modti3 return the truncated quotient and the remainder with the dividend's sign, for every divisor except 0 (and MIN/-1 wraps).", "quantifier": "all signed operand pairs with nonzero divisor", "why_tests_cant": "sign and extreme-value combinations with all magnitudes", "anchors": ["src/soft/integer/divti3.c", "src/soft/integer/modti3.c"]}
{"id": "C20", "title": "128-bit shifts agree with the mathematical shifts", "statement": "__ashlti3, __lshrti3 and __ashrti3 return the left, logical right and arithmetic right shift for every amount 0..127.", "quantifier": "all 2^128 values and all amounts 0..127", "why_tests_cant": "two-register shifts with boundary amounts 0 and 64", "anchors": ["src/soft/integer/ashlti3.c", "src/soft/integer/lshrti3.c", "src/soft/integer/ashrti3.c"]}
{"id": "C21", "title": "Integer to floating conversions round to nearest even", "statement": "Conversion of a 128-bit integer to double or float yields the representable value nearest to the integer, ties to even, and infinity exactly when the rounded value overflows.", "quantifier": "all 2^128 signed and unsigned inputs", "why_tests_cant": "tie cases have measure zero in random tests", "anchors": ["src/soft/integer/floattidf.c", "src/soft/integer/floattisf.c", "src/soft/integer/floatuntidf.c", "src/soft/integer/floatuntisf.c"]}
{"id": "C22", "title": "UTF-8 encode then decode is the identity", "statement": "For every Unicode scalar value, wcrtomb emits 1..4 bytes and mbrtowc applied to those bytes returns the same value, consumes exactly them and leaves the initial state.", "quantifier": "every wchar_t value that is a scalar value", "why_tests_cant": "the claim is universal over the code space and over every way of chunking the bytes", "anchors": ["src/wchar/wcrtomb.c", "src/wchar/mbrtowc.c"]}
{"id": "C23", "title": "mbrtowc accepts exactly well-formed UTF-8", "statement": "Starting from the initial state, mbrtowc succeeds on a byte sequence exactly when it begins with a well-formed UTF-8 sequence of Unicode Table 3-7; it rejects overlong forms, surrogates and values above 10FFFF with EILSEQ and reports incompleteness only for proper prefixes of well-formed sequences.", "quantifier": "every byte sequence of every length", "why_tests_cant": "all byte strings; rejects as well as accepts", "anchors": ["src/wchar/mbrtowc.c"]}
{"id": "C24", "title": "mbrtowc is restartable at every split point", "statement": "Feeding a byte sequence in any number of chunks of any sizes gives the same final result and consumption as feeding it at once.", "quantifier": "every byte sequence and every partition of it into calls", "why_tests_cant": "quantifies over call histories (all chunkings)", "anchors": ["src/wchar/mbrtowc.c"]}
{"id": "C25", "title": "wcrtomb rejects non-scalar values", "statement": "wcrtomb fails with EILSEQ and writes nothing for surrogates and for values above 10FFFF.", "quantifier": "every 32-bit wchar_t", "why_tests_cant": "full 32-bit domain", "anchors": ["src/wchar/wcrtomb.c"]}
{"id": "C26", "title": "UTF-16 conversion round-trips", "statement": "Feeding the UTF-16 code units of any scalar value to c16rtomb yields its UTF-8 bytes and mbrtoc16 on those bytes yields the code units back.", "quantifier": "every scalar value", "why_tests_cant": "full code space with a two-call protocol", "anchors": ["src/uchar/c16rtomb.c", "src/uchar/mbrtoc16.c"]}
{"id": "C27", "title": "c16rtomb rejects ill-formed UTF-16", "statement": "c16rtomb reports EILSEQ for every code unit sequence that is not well-formed UTF-16 (lone low surrogate, high surrogate not followed by a low surrogate).", "quantifier": "every code unit sequence", "why_tests_cant": "histories of calls", "anchors": ["src/uchar/c16rtomb.c"]}
{"id": "C28", "title": "gmtime yields the proleptic Gregorian date", "statement": "For every time_t whose year fits in int, gmtime's fields are in their documented ranges and denote the unique civil date and time that many seconds from 1970-01-01T00:00:00Z, including weekday and day of year.", "quantifier": "every representable time_t, negative ones included", "why_tests_cant": "calendar arithmetic with 400-year periodicity; 2^64 inputs", "anchors": ["src/time/gmtime.c"]}
{"id": "C29", "title": "mktime inverts gmtime", "statement": "mktime(gmtime(t)) = t, for every t whose broken-down year is representable.", "quantifier": "every such time_t", "why_tests_cant": "64-bit domain", "anchors": ["src/time/mktime.c", "src/time/gmtime.c"]}
{"id": "C30", "title": "mktime normalizes every field combination", "statement": "mktime of any (possibly out-of-range) fields equals the time obtained by plain calendar arithmetic: months carried into years, then days, hours, minutes and seconds added.", "quantifier": "every struct tm with int fields that does not overflow the year", "why_tests_cant": "out-of-range fields in all combinations, including negative days", "anchors": ["src/time/mktime.c"]}
{"id": "C31", "title": "strftime never overruns its buffer", "statement": "strftime(buf,max,fmt,tm) writes only buf[0..max-1]; it returns the length of the NUL-terminated output when it fits with its terminator and 0 otherwise.", "quantifier": "every format string, every tm, every max", "why_tests_cant": "unbounded format strings", "anchors": ["src/time/strftime.c"]}
{"id": "C32", "title": "strtol family returns the exact saturated value", "statement": "strtol/strtoll/strtoul/strtoull return the exact value of the longest valid subject sequence when it fits, otherwise the saturated limit with errno=ERANGE; endptr points just after the subject sequence, or at the start when there is none.", "quantifier": "every NUL-terminated string and every valid base", "why_tests_cant": "unbounded digit strings around the overflow boundary", "anchors": ["src/stdlib/parse/integer.h", "src/stdlib/parse/digit.h", "src/stdlib/strtol.c"]}
{"id": "C33", "title": "qsort sorts", "statement": "qsort leaves the array a permutation of its original contents, in an order where no element compares greater than its successor.", "quantifier": "every array length and content, every comparator that is a total preorder", "why_tests_cant": "introsort switches algorithms with depth and size; needs all inputs and any comparator", "anchors": ["src/stdlib/qsort.c"]}
{"id": "C34", "title": "bsearch terminates and finds", "statement": "bsearch on a sorted array returns the address of a matching element if one exists and NULL otherwise.", "quantifier": "every sorted array, key and consistent comparator", "why_tests_cant": "termination for all inputs", "anchors": ["src/stdlib/bsearch.c"]}
{"id": "C35", "title": "rand stays within 0..RAND_MAX and is a function of the seed", "statement": "After srand(s) the sequence of rand() values is determined by s and every value is in [0, RAND_MAX].", "quantifier": "every seed and every position in the sequence", "why_tests_cant": "unbounded histories", "anchors": ["src/stdlib/rand.c"]}
{"id": "C36", "title": "rand never gets stuck", "statement": "For every seed the generator keeps producing varying values (it has no absorbing state reachable from a seed).", "quantifier": "every seed", "why_tests_cant": "2^32 seeds times unbounded steps", "anchors": ["src/stdlib/rand.c"]}
{"id": "C37", "title": "exit runs atexit handlers in reverse registration order, once each", "statement": "At exit(), the functions registered with atexit run in reverse order of registration, each registration exactly once, including handlers registered by handlers; the process then terminates with the given status.", "quantifier": "every registration history up to the capacity and every handler behaviour", "why_tests_cant": "histories of registrations, including re-entrant ones", "anchors": ["src/stdlib/atexit.c", "src/stdlib/exit.c"]}
{"id": "C38", "title": "atexit accepts at least 32 handlers and reports failure afterwards", "statement": "The first 32 registrations succeed with 0; later ones fail with nonzero and do not disturb earlier ones.", "quantifier": "every registration history", "why_tests_cant": "histories", "anchors": ["src/stdlib/atexit.c"]}
{"id": "C39", "title": "abort terminates the process", "statement": "abort() always terminates the process abnormally, whatever the disposition of SIGABRT.", "quantifier": "every signal table", "why_tests_cant": "non-termination cannot be observed by a finite test", "anchors": ["src/stdlib/exit.c:abort", "src/signal/raise.c"]}
{"id": "C40", "title": "getenv finds exactly the named variable", "statement": "getenv(name) returns the value of the first environment entry of the form name=value and NULL when there is none; names that are prefixes of one another are not confused.", "quantifier": "every environment and every name", "why_tests_cant": "all environments", "anchors": ["src/stdlib/getenv.c", "src/stdlib/environ.c"]}
{"id": "C41", "title": "signal swaps handlers atomically over its table", "statement": "signal(n,h) for a valid n returns the previously installed handler and installs h, affecting no other signal; invalid n returns SIG_ERR and changes nothing; raise calls the installed handler.", "quantifier": "every history of signal/raise calls", "why_tests_cant": "unbounded histories", "anchors": ["src/signal/signal.c", "src/signal/raise.c"]}
{"id": "C42", "title": "Pushed-back characters are read back in LIFO order before the stream", "statement": "After any sequence of successful ungetc calls, the following getc calls return those characters in reverse order of pushing and then continue with the untouched stream.", "quantifier": "every stream content and every interleaving of getc and ungetc", "why_tests_cant": "operation histories", "anchors": ["src/stdio/ungetc.c", "src/stdio/getc.h", "src/stdio/getc.c"]}
{"id": "C43", "title": "fgets reads one line within its buffer", "statement": "fgets(buf,n,f) stores at most n-1 bytes, stops after the first newline or at end of file, and always terminates the result; the bytes stored are exactly the next bytes of the stream.", "quantifier": "every stream content and every n>=1", "why_tests_cant": "unbounded streams", "anchors": ["src/stdio/fgets.c"]}
{"id": "C44", "title": "getdelim returns exactly the bytes up to the delimiter and never overruns its buffer", "statement": "getdelim stores the stream bytes up to and including the delimiter (or end of file) plus a NUL in a buffer it grows as needed, and returns their count.", "quantifier": "every stream content, delimiter and initial capacity", "why_tests_cant": "capacity doubling with unbounded lines", "anchors": ["src/stdio/getdelim.c"]}
{"id": "C45", "title": "snprintf truncates safely", "statement": "snprintf(buf,n,...) writes at most n bytes, terminates the buffer when n>0, stores a prefix of the full output, and returns the full output length.", "quantifier": "every output byte sequence in any number of writer calls, every n", "why_tests_cant": "all chunkings of the output and all n", "anchors": ["src/stdio/vsnprintf.c"]}
{"id": "C46", "title": "printf integer conversions print the exact decimal, octal and hexadecimal text", "statement": "%d %i %u %o %x %X with any flags, width and precision print the text prescribed by the C standard for the value.", "quantifier": "every 64-bit value, flag set, width and precision", "why_tests_cant": "flags x width x precision x value space", "anchors": ["src/stdio/vfprintf.c"]}
{"id": "C47", "title": "printf never writes outside its own scratch buffers", "statement": "Formatting any integer with %d/%i/%u writes only inside the conversion's scratch buffer.", "quantifier": "every 64-bit argument", "why_tests_cant": "buffer sizes are computed by a macro; overrun is silent in tests", "anchors": ["src/stdio/vfprintf.c", "src/stdio/vfprintf.c:DECIMAL_DIGITS"]}
{"id": "C48", "title": "printf %s honours the precision", "statement": "%.*s prints at most precision bytes of the string whatever its alignment, and does not read past them.", "quantifier": "every string, address and precision", "why_tests_cant": "alignment-dependent", "anchors": ["src/stdio/vfprintf.c", "src/stdio/vfprintf.c:strnlen_"]}
{"id": "C49", "title": "scanf leaves the first unmatched character unread", "statement": "After fscanf returns, the next read from the stream yields the first character that was not part of a matched item.", "quantifier": "every stream and format", "why_tests_cant": "histories across calls", "anchors": ["src/stdio/vfscanf.c"]}
{"id": "C50", "title": "fread/fwrite report full items", "statement": "fread and fwrite return the number of complete items transferred, transfer exactly the bytes the underlying stream accepted, and set the error or end-of-file indicator exactly on short transfers.", "quantifier": "every size, count and every behaviour of the underlying stream", "why_tests_cant": "all short-transfer schedules", "anchors": ["src/stdio/fread.c", "src/stdio/fwrite.c"]}
{"id": "C51", "title": "Paths resolve through the longest matching preopened directory", "statement": "A path is resolved relative to a preopened directory whose name is a path-component prefix of it, the longest such one, with the remaining part passed on.", "quantifier": "every preopen table and every path", "why_tests_cant": "all tables", "anchors": ["src/wasi/preopen.c"]}
{"id": "C52", "title": "WASI errors map to the POSIX errno of the same name", "statement": "Every WASI error code maps to the errno constant of the same name, 0 maps to 0, and unknown codes map to a defined errno.", "quantifier": "every 16-bit error code", "why_tests_cant": "finite but table-driven; off-by-one shifts every later entry", "anchors": ["src/wasi/errno.h"]}
{"id": "C53", "title": "sbrk hands out disjoint growing regions", "statement": "Each successful __sbrk(n) returns the old break and raises it by n, growing linear memory when needed; regions returned by successive calls do not overlap, and failure leaves the break unchanged.", "quantifier": "every history of requests", "why_tests_cant": "histories and 32-bit wrap-around", "anchors": ["src/unistd/sbrk.c"]}
{"id": "C54", "title": "fmod is exact", "statement": "fmod(x,y) returns x - n*y for the integer n of the sign of x/y with the largest magnitude not exceeding |x/y|, exactly, for all finite x and nonzero y; its sign is that of x and its magnitude is less than |y|.", "quantifier": "all pairs of doubles", "why_tests_cant": "exponent differences up to 2000 iterations of modular reduction; 2^128 pairs", "anchors": ["src/math/double/fmod.h"]}
{"id": "C55", "title": "nextafter returns the adjacent double", "statement": "nextafter(x,y) returns the closest double to x in the direction of y, no double lying strictly between, and y when x==y; NaN propagates.", "quantifier": "all pairs of doubles", "why_tests_cant": "2^128 pairs; sign and zero crossings", "anchors": ["src/math/double/nextafter.c"]}
{"id": "C56", "title": "frexp decomposes exactly", "statement": "frexp(x,&e) returns m with 1/2 <= |m| < 1 and x = m*2^e exactly, for every nonzero finite x including subnormals; zero, infinities and NaNs are returned unchanged.", "quantifier": "every double", "why_tests_cant": "2^64 inputs", "anchors": ["src/math/double/frexp.c", "src/math/double/normalize.h"]}
{"id": "C57", "title": "scalbn scales with a single rounding", "statement": "scalbn(x,n) is x*2^n correctly rounded (ties to even), with exact results when representable and overflow to infinity, for every double and every int n.", "quantifier": "all doubles and all ints", "why_tests_cant": "double rounding in the subnormal range appears only for rare inputs", "anchors": ["src/math/double/scalbn.h"]}
{"id": "C58", "title": "ilogb/logb return the binary exponent", "statement": "For every nonzero finite x, ilogb(x) and logb(x) equal floor(log2|x|).", "quantifier": "every double", "why_tests_cant": "2^64 inputs", "anchors": ["src/math/double/ilogb.c", "src/math/double/logb.c"]}
{"id": "C59", "title": "remquo reports a quotient of the right sign", "statement": "remquo(x,y,&q) stores a value with the sign of x/y congruent to the rounded quotient modulo 2^k, k>=3.", "quantifier": "all pairs of doubles", "why_tests_cant": "sign combinations with all magnitudes", "anchors": ["src/math/double/remquo.h"]}
{"id": "C60", "title": "fma rounds once", "statement": "fma(a,b,c) is a*b+c correctly rounded.", "quantifier": "all triples of doubles", "why_tests_cant": "2^192 triples; exact cancellation is a measure-zero event", "anchors": ["src/math/double/fma.c"]}
{"id": "C61", "title": "lround rounds to nearest, halves away from zero", "statement": "lround(x) is the integer nearest x with halves away from zero, saturated.", "quantifier": "every double", "why_tests_cant": "exactly one double below one half misbehaves", "anchors": ["src/math/double/lround.c"]}
{"id": "C62", "title": "nearbyintl rounds long doubles to integers", "statement": "nearbyintl(x) is the integral value nearest x (ties to even) for every long double.", "quantifier": "every binary128 value", "why_tests_cant": "2^128 inputs; fails only beyond double precision", "anchors": ["src/math/long-double/nearbyintl.c"]}
{"id": "C63", "title": "binary128 comparison is numeric order", "statement": "Comparison of long doubles agrees with the order of their real values, with -0 = +0 and NaN unordered.", "quantifier": "all pairs of binary128 values", "why_tests_cant": "2^256 pairs", "anchors": ["src/soft/float/cmptf2.c", "src/soft/float/eqtf2.c", "src/soft/float/unordtf2.c"]}
{"id": "C64", "title": "binary128 multiplication is correctly rounded", "statement": "long double multiplication returns the representable value nearest to the exact product, ties to even, including subnormal results and overflow.", "quantifier": "all pairs of binary128 values", "why_tests_cant": "2^256 pairs; ties and subnormals are rare", "anchors": ["src/soft/float/multf3.c"]}
{"id": "C65", "title": "binary128 addition is correctly rounded", "statement": "long double addition and subtraction return the representable value nearest to the exact sum, ties to even.", "quantifier": "all pairs of binary128 values", "why_tests_cant": "ties with equal exponents are rare", "anchors": ["src/soft/float/addtf3.c", "src/soft/float/addtf3.c:__subtf3"]}
{"id": "C66", "title": "float/double to long double is exact and truncation back rounds correctly", "statement": "Widening float or double to long double preserves the value exactly; narrowing rounds to nearest even; narrowing after widening is the identity on non-NaN values.", "quantifier": "all values", "why_tests_cant": "2^128 inputs", "anchors": ["src/soft/float/extenddftf2.c", "src/soft/float/extendsftf2.c", "src/soft/float/trunctfdf2.c", "src/soft/float/trunctfsf2.c"]}
{"id": "C67", "title": "truncl truncates toward zero", "statement": "truncl(x) is the integral value nearest to but not larger in magnitude than x, with x's sign.", "quantifier": "every binary128 value", "why_tests_cant": "2^128 inputs", "anchors": ["src/math/long-double/truncl.c"]}
{"id": "C68", "title": "strtod is correctly rounded", "statement": "strtod returns the double nearest to the decimal value of the parsed subject sequence, ties to even.", "quantifier": "every decimal string", "why_tests_cant": "unbounded digit strings; hard cases lie within 2^-120 of a midpoint", "anchors": ["src/stdlib/parse/scientific.h", "src/stdlib/strtod.c"]}
{"id": "C69", "title": "strtod reports no conversion when there are no digits", "statement": "If the string contains no digit sequence, strtod returns 0 and sets endptr to the start of the string.", "quantifier": "every string", "why_tests_cant": "all strings", "anchors": ["src/stdlib/parse/float.h"]}
{"id": "C70", "title": "strtof is correctly rounded", "statement": "strtof returns the float nearest to the decimal value, ties to even.", "quantifier": "every decimal string", "why_tests_cant": "double rounding occurs only for rare inputs", "anchors": ["src/stdlib/parse/scientificf.h", "src/stdlib/strtof.c"]}
{"id": "C71", "title": "iswctype and towctrans decide exactly the named classes", "statement": "For every property name, wctype returns a handle for exactly the twelve standard class names (0 otherwise), and iswctype(c, wctype(name)) agrees with the isw* function of that name for every wide character; likewise wctrans/towctrans with toupper/tolower.", "quantifier": "every name string and every wint_t on which the ctype functions are defined (all but the 97 smallest)", "why_tests_cant": "all strings and 2^32 characters", "anchors": ["src/wctype/wctype.c", "src/wctype/iswctype.c", "src/wctype/wctrans.c", "src/wctype/towctrans.c"]}
{"id": "C72", "title": "String conversions never split a character and round-trip", "statement": "wcsrtombs stores the encodings of the longest run of whole characters that fits in len bytes and leaves *src at the first unconverted character (null once the terminator is stored); mbsrtowcs recovers the wide string; the composition is the identity.", "quantifier": "every wide string of scalar values and every buffer size", "why_tests_cant": "unbounded strings x all truncation points", "anchors": ["src/wchar/wcsrtombs.c", "src/wchar/mbsrtowcs.c"]}
{"id": "C73", "title": "asctime stays in its buffer and prints the standard line", "statement": "asctime never stores outside its 26-byte static buffer and leaves a NUL-terminated string there whatever the fields; for in-range fields and years 0-9999 the string is exactly the line 'Www Mmm dd hh:mm:ss yyyy\\n'.", "quantifier": "every struct tm (whose fields do not overflow when 1900 or 1 is added), every previous buffer content", "why_tests_cant": "overlong years and out-of-range fields combine in too many ways to enumerate", "anchors": ["src/time/asctime.c", "src/time/strftime.c"]}
{"id": "C74", "title": "atoi family returns the value of the decimal prefix", "statement": "atoi, atol and atoll return the value of the longest decimal prefix after white space whenever it is representable in the result type.", "quantifier": "every string whose decimal prefix denotes a representable value", "why_tests_cant": "unbounded leading white space and zeros x 2^64 values; the boundary value INT_MIN looks right under most compilers even when it overflows", "anchors": ["src/stdlib/atoi.h:ATOI", "src/stdlib/atoi.c", "src/stdlib/atol.c", "src/stdlib/atoll.c"]}
{"id": "C75", "title": "The heap starts above static data", "statement": "Memory obtained from the heap break never overlaps the program's static data or stack: the initial break lies at or above the end of the linked image.", "quantifier": "every program image (frame address, data address) and every first request", "why_tests_cant": "a small first allocation that happens to fall in unused low memory passes any test", "anchors": ["src/crt/crt1.c", "src/unistd/sbrk.c:__sbrk"]}
{"id": "C76", "title": "strxfrm and strcoll agree", "statement": "strxfrm returns the length of the transformed string and writes only inside its n-byte buffer; when both results fit, strcmp of the two transformed strings has the same sign as strcoll of the originals, which is the lexicographic order on unsigned bytes.", "quantifier": "every pair of strings, every pair of buffer sizes, every memory", "why_tests_cant": "relates three calls over all pairs of strings and truncation lengths", "anchors": ["src/string/strxfrm.c", "src/string/strcoll.c"]}
{"id": "C77", "title": "Output functions report failed writes", "statement": "putc, fputs and puts return a success value exactly when every byte was accepted by the underlying file, and EOF otherwise.", "quantifier": "every string and every behaviour of the underlying file", "why_tests_cant": "all failure schedules", "anchors": ["src/stdio/putc.h", "src/stdio/fputs.c", "src/stdio/puts.c", "src/stdio/_write.c"]}
{"id": "C78", "title": "ungetc returns the character pushed back", "statement": "A successful ungetc(c) returns c converted to unsigned char, the value the next getc returns.", "quantifier": "every int and every stream", "why_tests_cant": "all int arguments including negative chars", "anchors": ["src/stdio/ungetc.c"]}
{"id": "C79", "title": "ftell reports and fseek restores the logical position", "statement": "ftell returns the offset of the next byte to be read and has no other effect; fseek moves to the offset counted from the start, the next byte or the end; returning to a reported position reads the same bytes again.", "quantifier": "every file, stream state, offset and origin", "why_tests_cant": "histories of reads, push-backs and seeks", "anchors": ["src/stdio/ftell.c", "src/stdio/fseek.c", "src/stdio/_seek.c"]}
{"id": "C80", "title": "clearerr clears the two indicators and nothing else", "statement": "After clearerr neither indicator is set and every other operation behaves as before.", "quantifier": "every stream", "why_tests_cant": "relates later calls", "anchors": ["src/stdio/clearerr.c"]}
{"id": "C81", "title": "fopen mode strings have their standard meaning", "statement": "r, w, a followed by any of b + x e in any order open the file with exactly the standard access, creation, truncation, exclusivity and append behaviour.", "quantifier": "every mode string starting with r, w or a and every path that resolves", "why_tests_cant": "unbounded mode strings in any order", "anchors": ["src/stdio/modeflags.h", "src/stdio/_open.c", "src/stdio/fopen.c"]}
{"id": "C82", "title": "Files are opened with the WASI rights of the operations needed", "statement": "The rights requested from the host carry the bits that WASI preview1 assigns to the named rights.", "quantifier": "every mode", "why_tests_cant": "permissive hosts ignore rights", "anchors": ["src/wasi/wasi.h", "src/stdio/_open.c"]}
{"id": "C83", "title": "fprintf reports every failed write", "statement": "When the underlying file accepts everything, fprintf has written exactly the prescribed text and returns its length; when any write falls short or fails, it returns a negative value, the error indicator is set and the bytes accepted are a proper prefix of the text.", "quantifier": "every format, argument list and every behaviour of the underlying file (any sequence of short writes and errors)", "why_tests_cant": "all interleavings of short writes with the pieces of the output", "anchors": ["src/stdio/vfprintf.c:vfprintf", "src/stdio/_write.c:__stdio_write"]}
{"id": "C84", "title": "printf pads characters and strings to the field width", "statement": "%c and %s with a field width print at least that many characters, padded with spaces on the left, or on the right with the flag -.", "quantifier": "every width, flag set, character and string", "why_tests_cant": "width x length combinations", "anchors": ["src/stdio/vfprintf.c:convert_c_", "src/stdio/vfprintf.c:convert_s_"]}
{"id": "C85", "title": "asprintf allocates exactly the text", "statement": "asprintf stores a pointer to a fresh block holding exactly the formatted text and its terminator, of the size requested from malloc, and returns the length; if malloc fails it returns -1, stores a null pointer and writes nothing.", "quantifier": "every format, argument list and allocator behaviour", "why_tests_cant": "allocation failures and off-by-one sizes are invisible when malloc rounds up", "anchors": ["src/stdio/vasprintf.c:vasprintf", "src/stdio/asprintf.c", "src/stdio/vsnprintf.c"]}
{"id": "C86", "title": "printf supports the exponent conversions", "statement": "%e, %E, %g and %G print the argument in exponent notation.", "quantifier": "every double", "why_tests_cant": "completeness of the conversion table", "anchors": ["src/stdio/vfprintf.c:convert_"]}
{"id": "C87", "title": "nexttoward moves toward a long double", "statement": "nexttoward(x,y) and nexttowardf(x,y) return the closest value of the type of x in the direction of the long double y, however close to x it is; for equal arguments they return x with the sign of y; NaN propagates.", "quantifier": "all doubles and floats x and all long doubles y", "why_tests_cant": "long doubles strictly between adjacent doubles", "anchors": ["src/math/double/nexttoward.c", "src/math/float/nexttowardf.c"]}
{"id": "C88", "title": "remainder is exact", "statement": "remainder(x,y) is x - q*y exactly for the integer q nearest x/y, even in a tie, with the sign of x when zero; an infinite divisor returns x; an infinite dividend, a zero divisor or a NaN returns NaN.", "quantifier": "all pairs of doubles and of floats", "why_tests_cant": "scaling of y by two may overflow, subnormal divisors take another path", "anchors": ["src/math/double/remainder.c", "src/math/float/remainderf.c"]}
{"id": "C89", "title": "llround, lroundf and llroundf round halves away from zero", "statement": "The result is the integer nearest the argument, halves away from zero, saturated to the range of the result type.", "quantifier": "every double and every float", "why_tests_cant": "values just below one half and integers of at least 2^52", "anchors": ["src/math/double/llround.c", "src/math/float/lroundf.c", "src/math/float/llroundf.c"]}
{"id": "C90", "title": "round and roundf return the nearest integer", "statement": "The result is the integer nearest the argument, halves away from zero, with the sign of the argument also when zero; infinities and NaNs propagate.", "quantifier": "every double and every float", "why_tests_cant": "values just below one half and near 2^52", "anchors": ["src/math/double/round.h", "src/math/float/roundf.h"]}
{"id": "C91", "title": "lrint and llrint round halves to even", "statement": "lrint, llrint, lrintf and llrintf return the integer nearest the argument, even in a tie, saturated to the range of the result type.", "quantifier": "every double and every float", "why_tests_cant": "LONG_MAX and LLONG_MAX are not representable in the type compared with", "anchors": ["src/math/double/lrint.c", "src/math/double/llrint.c", "src/math/float/lrintf.c", "src/math/float/llrintf.c"]}
{"id": "C92", "title": "modf splits exactly", "statement": "modf returns a fraction of magnitude less than one and stores an integral value; both have the sign of the argument and their sum is exactly the argument; an infinity gives a zero fraction and itself.", "quantifier": "every double and every float", "why_tests_cant": "exactness for all magnitudes", "anchors": ["src/math/double/modf.c", "src/math/float/modff.c"]}
{"id": "C93", "title": "fmax, fmin and fdim", "statement": "fmax and fmin return one of their arguments that is not less (not greater) than either and ignore a single NaN; fdim returns the positive difference rounded once, zero otherwise, and propagates NaN.", "quantifier": "all pairs of doubles and of floats", "why_tests_cant": "all pairs including NaN and signed zeros", "anchors": ["src/math/double/fmax.c", "src/math/double/fmin.c", "src/math/double/fdim.c"]}
{"id": "C94", "title": "long double to integer conversion truncates", "statement": "Conversion of a long double to int, unsigned, long long, unsigned long long, __int128 and unsigned __int128 drops the fraction whenever the result is representable.", "quantifier": "every binary128 value whose integral part is representable", "why_tests_cant": "2^128 inputs; the least integer of each signed type is a single boundary value", "anchors": ["src/soft/float/fixtfsi.c", "src/soft/float/fixunstfsi.c", "src/soft/float/fixtfdi.c", "src/soft/float/fixunstfdi.c", "src/soft/float/fixtfti.c", "src/soft/float/fixunstfti.c"]}
{"id": "C95", "title": "ldexpl scales with a single rounding", "statement": "ldexpl(x,n) is x*2^n rounded once to nearest, ties to even, for every finite nonzero long double and every int n; zeros, infinities and NaNs are returned unchanged.", "quantifier": "all binary128 values and all ints", "why_tests_cant": "double rounding in the subnormal range appears only for rare inputs", "anchors": ["src/math/long-double/ldexpl.c"]}
{"id": "C96", "title": "nexttowardl returns the adjacent long double", "statement": "nexttowardl(x,y) returns the closest long double to x in the direction of y and y when they are equal; NaN propagates.", "quantifier": "all pairs of binary128 values", "why_tests_cant": "2^256 pairs; sign and zero crossings", "anchors": ["src/math/long-double/nexttowardl.c"]}
{"id": "C97", "title": "binary128 division is correctly rounded", "statement": "long double division returns the representable value nearest to the exact quotient, ties to even; quotients of zeros, infinities and NaNs follow IEEE 754.", "quantifier": "all pairs of binary128 values", "why_tests_cant": "2^256 pairs; hard cases within 2^-110 of a midpoint", "anchors": ["src/soft/float/divtf3.c"]}
{"id": "C98", "title": "sqrtl is correctly rounded", "statement": "sqrtl returns the representable value nearest to the exact square root; negative numbers give NaN, zeros and the positive infinity themselves.", "quantifier": "every binary128 value", "why_tests_cant": "2^128 inputs", "anchors": ["src/math/long-double/sqrtl.c"]}
{"id": "C99", "title": "endptr points after the longest number", "statement": "strtod and strtof store through endptr the address just after the longest initial sequence of the expected decimal form.", "quantifier": "every string with a decimal number, of any length", "why_tests_cant": "all strings; sequences of unbounded length", "anchors": ["src/stdlib/parse/float.h", "src/stdlib/strtod.c", "src/stdlib/strtof.c"]}
{"id": "C100", "title": "inf and infinity are converted", "statement": "strtod and strtof convert inf and infinity, in any case and with any sign, to infinities, report no range error and set endptr after the longest match.", "quantifier": "every string beginning with an infinity", "why_tests_cant": "all case variants and all continuations", "anchors": ["src/stdlib/parse/float.h"]}
{"id": "C101", "title": "nan and nan(tag) are converted", "statement": "strtod and strtof convert nan and nan(n-char-sequence) to NaNs with the given sign and set endptr after the longest match.", "quantifier": "every string beginning with nan", "why_tests_cant": "all tags and continuations", "anchors": ["src/stdlib/parse/float.h", "src/stdlib/parse/nan.h"]}
{"id": "C102", "title": "Number parsing stays inside its buffers", "statement": "Whatever the string, strtod and strtof store only inside their fixed-size working buffers and return; the number of digits in the input does not lead to undefined behaviour.", "quantifier": "every string", "why_tests_cant": "a stack buffer overflows only for inputs with thousands of significant digits just at a rounding boundary", "anchors": ["src/stdlib/parse/bigint.h:bigint_cmp_halfway_", "src/stdlib/parse/bigint.h:bigint_mul_u64_", "src/stdlib/strtod.c", "src/stdlib/strtof.c"]}
{"id": "C103", "title": "scanf converts what the standard says", "statement": "For every well-formed format and every input, sscanf and fscanf skip, match and convert exactly the input items of C11 7.21.6.2 (integers in every base and size, floating-point numbers, strings, characters, scansets, %n, literals, widths and suppression), store the corresponding objects through the pointers in order and return the number of assignments, or EOF when the input ends before the first conversion.", "quantifier": "every format built from these directives, every input text", "why_tests_cant": "formats and inputs are unbounded; interactions of widths, suppression, item boundaries and failures", "anchors": ["src/stdio/vfscanf.c", "src/stdio/vsscanf.c", "src/stdio/fscanf.c", "src/stdio/scanf.c", "src/stdio/sscanf.c", "src/stdio/vscanf.c"]}
{"id": "C104", "title": "scanf is safe for every format and input", "statement": "Whatever bytes the format and the input consist of, scanf terminates without undefined behaviour, never pushes back more than it can hold, stores through each pointer at most once, in order and never through a pointer that was not passed, and returns EOF or at most the number of objects stored.", "quantifier": "every format with as many pointers as % characters and every input", "why_tests_cant": "arbitrary format/input pairs, including malformed directives and inputs ending anywhere", "anchors": ["src/stdio/vfscanf.c:vfscanf", "src/stdio/vfscanf.c:sungetc_"]}
{"id": "C105", "title": "Wide string searches", "statement": "wcslen, wcschr, wcsrchr, wcsspn, wcscspn, wcspbrk, wcsstr and wmemchr return the length, the first or last occurrence of a character (the terminator included), the spans, and the first occurrence of a string; they read nothing beyond what decides the result.", "quantifier": "every memory, every wide strings and characters, negative values included", "why_tests_cant": "unbounded strings and all wchar_t values", "anchors": ["src/wchar/wcslen.c", "src/wchar/wcschr.c", "src/wchar/wcsrchr.c", "src/wchar/wcsspn.c", "src/wchar/wcscspn.c", "src/wchar/wcspbrk.c", "src/wchar/wcsstr.c", "src/wchar/wmemchr.c"]}
{"id": "C106", "title": "Wide string writes stay inside their destination", "statement": "wcscpy, wcscat, wcsncpy, wcsncat, wcsxfrm, wmemset, wmemcpy and wmemmove write exactly the characters prescribed, with padding and terminators where the standard says, and change nothing else; sources of the bounded functions need not be terminated.", "quantifier": "every memory, every length and every placement without overlap (with any overlap for wmemmove)", "why_tests_cant": "memory outside the destination and arrays without terminator", "anchors": ["src/wchar/wcscpy.c", "src/wchar/wcscat.c", "src/wchar/wcsncpy.c", "src/wchar/wcsncat.c", "src/wchar/wcsxfrm.c", "src/wchar/wmemset.c", "src/wchar/wmemcpy.c", "src/wchar/wmemmove.c"]}
{"id": "C107", "title": "Wide comparisons order by wchar_t", "statement": "wcscmp, wcsncmp, wcscoll and wmemcmp return a value whose sign orders the arguments lexicographically by the values of wchar_t; differences are never computed in a way that overflows; wcsncmp and wmemcmp read at most n characters and wcsncmp none after a terminator.", "quantifier": "all pairs of wide strings and arrays", "why_tests_cant": "pairs of unbounded strings; extreme values of wchar_t", "anchors": ["src/wchar/wcscmp.c", "src/wchar/wcsncmp.c", "src/wchar/wcscoll.c", "src/wchar/wmemcmp.c"]}
{"id": "C108", "title": "wcstok returns the tokens in order", "statement": "Successive calls of wcstok return pointers to the maximal runs of characters that are not separators, each terminated in place, then null pointers for ever; nothing outside the string changes.", "quantifier": "every string, separator set and number of calls", "why_tests_cant": "sequences of calls on unbounded strings", "anchors": ["src/wchar/wcstok.c"]}
{"id": "C109", "title": "wcstol converts like strtol", "statement": "wcstol, wcstoll, wcstoul and wcstoull convert the longest subject sequence of a wide string, whatever wide characters follow it and however long it is, clamp with ERANGE, and store the end of it.", "quantifier": "every wide string and base", "why_tests_cant": "unbounded strings; truncation occurs only beyond the internal buffer", "anchors": ["src/wchar/wcstol.c", "src/wchar/wcstoll.c", "src/wchar/wcstoul.c", "src/wchar/wcstoull.c", "src/wchar/parse.h"]}
{"id": "C110", "title": "wcstod converts like strtod", "statement": "wcstod and wcstof round the decimal number at the start of a wide string correctly, convert infinities, and store the end of the longest subject sequence, whatever wide characters follow and however long it is.", "quantifier": "every wide string", "why_tests_cant": "unbounded strings; truncation occurs only beyond the internal buffer", "anchors": ["src/wchar/wcstod.c", "src/wchar/wcstof.c", "src/wchar/parse.h"]}
{"id": "C111", "title": "fgetwc decodes the file", "statement": "fgetwc returns the characters whose UTF-8 text a file contains, one after the other, takes no byte of the next one, and reports the end, malformed input and read errors with WEOF and the indicator that belongs to each.", "quantifier": "every file behaviour, text and position", "why_tests_cant": "decoding restarts at every byte of unbounded input; failures of the host at any point", "anchors": ["src/wchar/fgetwc.c", "src/wchar/mbrtowc.c", "src/stdio/getc.h"]}
{"id": "C112", "title": "fgetws reads one line", "statement": "fgetws stores the wide characters up to and including a newline, at most n - 1, and a terminator, changes nothing outside its array, leaves the rest unread, and returns a null pointer at the end of the file or after an error.", "quantifier": "every file behaviour, text, array and n", "why_tests_cant": "unbounded lines, and failures at every point of them", "anchors": ["src/wchar/fgetws.c", "src/wchar/fgetwc.c"]}
{"id": "C113", "title": "fputwc and fputws write UTF-8", "statement": "fputwc and fputws hand over the UTF-8 text of their argument in order and succeed only if all of it was accepted; what is not a Unicode scalar value is refused with the error indicator set; what was written is read back by fgetwc.", "quantifier": "every string and every behaviour of the file", "why_tests_cant": "all code points; partial writes at any byte", "anchors": ["src/wchar/fputwc.c", "src/wchar/fputws.c", "src/wchar/wcrtomb.c"]}
{"id": "C114", "title": "ungetwc pushes back one character", "statement": "A character pushed back is returned by the next fgetwc, whatever the stream; it survives clearerr, is forgotten by fseek, and the stream is otherwise as before with the end indicator clear; WEOF cannot be pushed back.", "quantifier": "every stream state and character", "why_tests_cant": "states of the stream in all combinations", "anchors": ["src/wchar/ungetwc.c", "src/wchar/fgetwc.c", "src/stdio/clearerr.c", "src/stdio/fseek.c"]}
{"id": "C115", "title": "The orientation of a stream is fixed once", "statement": "The first operation on a stream gives it byte or wide orientation, fwide reports it, and no sequence of operations changes it afterwards.", "quantifier": "every sequence of operations", "why_tests_cant": "sequences of calls of any length", "anchors": ["src/wchar/fwide.c", "src/wchar/fgetwc.c", "src/wchar/fputwc.c", "src/wchar/ungetwc.c", "src/stdio/getc.h", "src/stdio/putc.h"]}
{"id": "C116", "title": "swprintf stores the text", "statement": "swprintf stores the wide characters that the format and its arguments prescribe with a terminator, never more than its buffer holds, and returns their number; it returns a negative value when they do not fit or cannot be encoded.", "quantifier": "every format, argument list, buffer size and text", "why_tests_cant": "characters cut in pieces at any place between the conversions; buffer sizes against text lengths", "anchors": ["src/wchar/vswprintf.c", "src/wchar/vfwprintf.c", "src/wchar/swprintf.c", "src/stdio/vfprintf.c"]}
{"id": "C117", "title": "fwprintf writes the text", "statement": "fwprintf has the UTF-8 text that the format and its arguments prescribe accepted by the file in order, or fails with the error indicator set; it returns the number of wide characters; formats and strings that cannot be encoded make it fail.", "quantifier": "every format, argument list and behaviour of the file", "why_tests_cant": "partial writes at any byte; all texts", "anchors": ["src/wchar/vfwprintf.c", "src/wchar/fwprintf.c", "src/stdio/vfprintf.c"]}
{"id": "C118", "title": "printf rounds decimals correctly", "statement": "%f and %F print the double nearest to their precision, ties to even, with sign, point, flags and padding as asked for; infinities and NaNs by name; the value returned is the length.", "quantifier": "every double, flag set, width and precision", "why_tests_cant": "2^64 patterns times all precisions; the results next to a tie need exact arithmetic", "anchors": ["src/stdio/vfprintf.c:fixed_", "src/stdio/vfprintf.c:fixed_small_", "src/stdio/vfprintf.c:fixed_moderate_", "src/stdio/vfprintf.c:fixed_bigint_", "src/stdio/vfprintf.c:limbs_placed_rint_"]}
{"id": "C119", "title": "%f stays within its scratch arrays", "statement": "No conversion of a double by %f or %F writes outside the automatic arrays it works in.", "quantifier": "every double, flag set, width and precision", "why_tests_cant": "an overrun of a few bytes on the stack seldom shows", "anchors": ["src/stdio/vfprintf.c:fixed_moderate_", "src/stdio/vfprintf.c:limbs_scal5n_", "src/stdio/vfprintf.c:common_fixed_small_", "src/stdio/vfprintf.c:fixed_bigint_"]}
{"id": "C120", "title": "%a prints a double exactly", "statement": "%a and %A without precision, or with one of at least 13 digits, print the argument exactly, without precision in the fewest digits; with a smaller precision the result is correctly rounded, ties to even. The scratch array is not overrun.", "quantifier": "every double, flag set, width and precision", "why_tests_cant": "2^64 patterns times all precisions", "anchors": ["src/stdio/vfprintf.c:hexfloat_", "src/stdio/vfprintf.c:convert_a_"]}
{"id": "C121", "title": "%La prints a long double exactly", "statement": "The same for long double, whose significand has 28 digits.", "quantifier": "every long double, flag set, width and precision", "why_tests_cant": "2^128 patterns times all precisions", "anchors": ["src/stdio/vfprintf.c:hexfloatq_", "src/stdio/vfprintf.c:convert_a_"]}
{"id": "C122", "title": "printf knows all floating-point conversions", "statement": "e, E, g, G and the long double versions of f and F print their argument as C11 7.21.6.1 says.", "quantifier": "every directive with one of these conversions", "why_tests_cant": "flags, widths and precisions of any size", "anchors": ["src/stdio/vfprintf.c:convert_", "src/stdio/vfprintf.c:convert_f_"]}
{"id": "C123", "title": "Floating-point numbers convert to 128-bit integers exactly", "statement": "Converting a double or float to __int128 or unsigned __int128 discards the fraction and gives the exact integer, for every number whose integral part the type can hold.", "quantifier": "every finite double and float in range", "why_tests_cant": "2^64 patterns; the two halves are computed by rounding operations", "anchors": ["src/soft/integer/fixdfti.h:fixdfti_", "src/soft/integer/fixsfti.h:fixsfti_", "src/soft/integer/fixunsdfti.h:fixunsdfti_", "src/soft/integer/fixunssfti.h:fixunssfti_"]}
{"id": "C124", "title": "Absolute values and quotients of integers", "statement": "abs, labs, llabs and imaxabs give the absolute value and div, ldiv, lldiv and imaxdiv the quotient rounded toward zero with its remainder, whenever these are representable; in no other case is the call defined.", "quantifier": "all integers of the type", "why_tests_cant": "all pairs of 64-bit integers", "anchors": ["src/stdlib/abs.h", "src/stdlib/div.h", "src/inttypes/imaxabs.c", "src/inttypes/imaxdiv.c"]}
{"id": "C125", "title": "Integer powers", "statement": "A power with an integer exponent is exact if it is representable; it is never a NaN unless the base is one, has the sign the parity of the exponent asks for, and lies on the same side of one as the base.", "quantifier": "every double and float, every int exponent", "why_tests_cant": "the sequence of roundings depends on all bits of the exponent", "anchors": ["src/soft/powi/powi.h:powu_", "src/soft/powi/powi.h:powi_"]}
{"id": "C126", "title": "Complex products of infinities are infinite", "statement": "Multiplying a complex infinity, that is a number with an infinite part even if the other one is a NaN, by an infinity or by a finite number other than zero gives an infinity (C11 Annex G); a product whose intermediate results are representable is exact.", "quantifier": "all pairs of complex doubles and of complex floats", "why_tests_cant": "four 64-bit parts with NaNs and infinities in any of them", "anchors": ["src/soft/complex/muldc3.c", "src/soft/complex/mulsc3.c"]}
{"id": "C127", "title": "Complex quotients of infinities and zeros", "statement": "An infinity divided by a finite number is an infinity, a number other than zero divided by zero is an infinity, and a finite number divided by an infinity is zero (C11 Annex G).", "quantifier": "all pairs of complex doubles and of complex floats", "why_tests_cant": "four 64-bit parts with NaNs and infinities in any of them", "anchors": ["src/soft/complex/division.h", "src/soft/complex/divdc3.c", "src/soft/complex/divsc3.c"]}
{"id": "C128", "title": "Complex quotients do not overflow without need", "statement": "A quotient of finite complex doubles that is representable is found, whatever the exponents of the operands; division by a real power of two rounds once.", "quantifier": "all pairs of finite complex doubles", "why_tests_cant": "intermediate overflow depends on the exponents of four parts", "anchors": ["src/soft/complex/division.h"]}
{"id": "C129", "title": "Complex square roots", "statement": "csqrt gives the special values of C11 Annex G, commutes with conjugation, never has a negative real part, and gives the correctly rounded root of every real number.", "quantifier": "every complex double", "why_tests_cant": "2^128 arguments", "anchors": ["src/math/double/csqrt.c:csqrt", "src/math/double/finite/csqrt.h:csqrt_"]}
{"id": "C130", "title": "The real part of the complex logarithm", "statement": "The real part of clog is the logarithm of the modulus, infinite for infinities, minus infinity for zeros and NaN only if a part is one.", "quantifier": "every complex double", "why_tests_cant": "2^128 arguments", "anchors": ["src/math/double/clog.h:real_clog_", "src/math/double/clog.c:clog"]}
{"id": "C131", "title": "Projection and conjugation", "statement": "cproj maps every complex infinity to the positive real infinity with the sign of the imaginary part on its zero and leaves everything else; conj negates the imaginary part, NaNs included, and undoes itself.", "quantifier": "every complex float and double", "why_tests_cant": "2^128 arguments", "anchors": ["src/math/double/cproj.c", "src/math/double/conj.c", "src/math/float/cprojf.c", "src/math/float/conjf.c"]}
{"id": "C132", "title": "fclose closes once and says what went wrong", "statement": "fclose asks the host exactly once to close the stream's descriptor, releases the stream and no other, returns 0 if the host reported success and otherwise EOF with errno telling the reason, for the standard streams too.", "quantifier": "all streams, all hosts", "why_tests_cant": "the failures of a host and the storage of other streams are not in reach of a test", "anchors": ["src/stdio/fclose.c:fclose", "src/stdio/_close.c:__stdio_close"]}
{"id": "C133", "title": "No descriptor is leaked or closed twice", "statement": "After any sequence of fopen, fclose and freopen calls, whether they succeed or fail, the open descriptors are exactly one for each stream and those belonging to no stream; in particular closing all streams closes all their descriptors.", "quantifier": "all sequences of calls, all hosts that keep a table of descriptors, all allocators", "why_tests_cant": "unboundedly many histories with failures at any point", "anchors": ["src/stdio/fopen.c:fopen", "src/stdio/fclose.c:fclose", "src/stdio/freopen.c:freopen", "src/stdio/_open.c:open_path_"]}
{"id": "C134", "title": "fgetpos and fsetpos", "statement": "fgetpos succeeds and changes nothing a reader sees; fsetpos to the position it stored returns there, forgets characters pushed back, and clears the end-of-file indicator.", "quantifier": "all streams on regular files, whatever happens in between", "why_tests_cant": "positions up to 2^63 and all histories", "anchors": ["src/stdio/fgetpos.c:fgetpos", "src/stdio/fsetpos.c:fsetpos"]}
{"id": "C135", "title": "remove and rename", "statement": "remove deletes the named file or empty directory and nothing else, and otherwise changes nothing and reports why; rename hands both names over in one step; a name outside every preopened directory is reported as missing without touching the file system.", "quantifier": "all paths, all file systems", "why_tests_cant": "all contents of a file system", "anchors": ["src/stdio/remove.c:remove", "src/stdio/rename.c:rename"]}
{"id": "C136", "title": "Error messages tell errors apart", "statement": "strerror gives different messages to different error numbers, and a message to every error number the library sets.", "quantifier": "all integers", "why_tests_cant": "2^32 arguments; the set of numbers comes from the host table", "anchors": ["src/string/strerror.c:strerror"]}
{"id": "C137", "title": "The multibyte functions without a state have no memory", "statement": "Whatever was converted before, rightly or wrongly, mbtowc and mblen report the character their argument begins with, and wctomb stores the sequence of its argument; the string functions convert whole strings both ways and stop at the first invalid element with what precedes it stored.", "quantifier": "all histories of calls, all byte and wide strings", "why_tests_cant": "the hidden static state makes results depend on all earlier calls", "anchors": ["src/stdlib/mbtowc.c:mbtowc", "src/stdlib/mblen.c:mblen", "src/stdlib/wctomb.c:wctomb", "src/stdlib/mbstowcs.c:mbstowcs", "src/stdlib/wcstombs.c:wcstombs", "src/wchar/mbsrtowcs.c:mbsrtowcs", "src/wchar/wcsrtombs.c:wcsrtombs"]}
{"id": "C138", "title": "Hexadecimal floating-point strings", "statement": "strtod, strtof and strtold convert the longest hexadecimal subject sequence of a string to the nearest value of the type (ties to even), with the sign given, report overflow and nothing else through errno, and store the end of the subject sequence; the prefix 0x without digits is the number 0 followed by a letter.", "quantifier": "all strings, of any number of digits and any exponent", "why_tests_cant": "unboundedly many digits and exponents; roundings hinge on the last digit", "anchors": ["src/stdlib/parse/float.h:parsehex_", "src/stdlib/parse/float.h:parseexp_", "src/stdlib/strtod.c:strtod", "src/stdlib/strtof.c:strtof", "src/stdlib/strtold.c:strtold"]}
{"id": "C139", "title": "%a and strtod are inverse", "statement": "What printf prints of a finite double with %a or %A, with any flags and field width and no precision, strtod converts back to the same value, including the sign of zero, without error, consuming all but trailing spaces; likewise long double with %La and strtold.", "quantifier": "all 2^64 and 2^128 patterns, all flags and widths", "why_tests_cant": "2^128 values times all widths and flags", "anchors": ["src/stdio/vfprintf.c:hexfloat_", "src/stdlib/parse/float.h:parsehex_", "src/stdlib/strtod.c:strtod", "src/stdlib/strtold.c:strtold"]}
{"id": "C140", "title": "Printed integers are read back", "statement": "What printf prints of an integer with d, i, u, o, x or X, with any flags, width, precision and length modifier, is converted back to the same value by strtoll or strtoull with the same base, and by strtol, strtoul and atoi if the value is in their range, consuming all but trailing spaces.", "quantifier": "all values of all integer types, all flags, widths and precisions", "why_tests_cant": "2^64 values times all widths, flags and precisions", "anchors": ["src/stdio/vfprintf.c:vfprintf", "src/stdlib/strtol.c:strtol", "src/stdlib/strtoll.c:strtoll", "src/stdlib/strtoul.c:strtoul", "src/stdlib/strtoull.c:strtoull", "src/stdlib/atoi.c:atoi"]}
{"id": "C141", "title": "hypotf is correctly rounded", "statement": "hypotf of two finite floats is the float nearest to the exact length of the hypotenuse, a tie going to the even one, infinity exactly when rounding overflows; the order and the signs of the legs do not matter; an infinite leg gives infinity even beside a NaN, otherwise a NaN gives a NaN.", "quantifier": "all 2^64 pairs of floats", "why_tests_cant": "2^64 pairs; a wrong last bit shows only next to a midpoint, about once in 10^8 pairs", "anchors": ["src/math/float/hypotf.c:hypotf"]}
{"id": "C142", "title": "Clocks are converted without loss or overflow", "statement": "clock returns the processor time in whole microseconds, time the wall-clock time in whole seconds, timespec_get(TIME_UTC) seconds and nanoseconds below 10^9 that add up to the host's time, for every 64-bit time in nanoseconds; a failing host gives -1 (and the POSIX error for time), respectively 0 with nothing stored; other bases give 0.", "quantifier": "all 2^64 host times, all bases, all host errors that WASI defines", "why_tests_cant": "a test sees only the present time; overflow would appear only centuries from now", "anchors": ["src/time/clock.c:clock", "src/time/time.c:time", "src/time/timespec_get.c:timespec_get"]}
{"id": "C143", "title": "stat, lstat and fstat describe the file the host describes", "statement": "For every table of preopened directories, path and host answer, the structure stored gives device, inode, type (exactly the right S_IS macro holds), size, number of 512-byte blocks rounded up, links and the three times; stat has the host follow symbolic links and lstat does not; errors get the POSIX number of the same name, and a path in no preopened directory is ENOENT.", "quantifier": "all paths, directory tables, file systems and 64-bit field values", "why_tests_cant": "sizes, times and link counts near the limits and all combinations of tables and paths cannot be set up in a test", "anchors": ["src/sys/stat/stat.c:stat", "src/sys/stat/lstat.c:lstat", "src/sys/stat/fstat.c:fstat", "src/wasi/stat_convert.h:wasi_fill_stat"]}
{"id": "C144", "title": "difftime is the exact difference rounded once", "statement": "difftime(a, b) is the difference of the two times as integers, rounded once to double.", "quantifier": "all pairs of 64-bit times", "why_tests_cant": "2^128 pairs; errors appear only for times beyond 2^53", "anchors": ["src/time/difftime.c:difftime"]}
{"id": "C145", "title": "wcsftime is strftime for wide characters", "statement": "For every format of Unicode characters and broken-down time with fields in range, wcsftime stores exactly the text strftime defines for the format, and a terminator, if they fit, and returns the number of characters; otherwise it returns 0 and leaves everything outside the array alone; it also returns 0 when memory runs out or the format contains something that is not a character.", "quantifier": "all formats, times, array sizes and allocation outcomes", "why_tests_cant": "formats and times are unbounded; the text passes through UTF-8 in a temporary buffer whose size must suffice for every mixture of characters", "anchors": ["src/wchar/wcsftime.c:wcsftime"]}
{"id": "C146", "title": "setlocale accepts exactly the C locale", "statement": "For the six categories of the standard setlocale answers C to a query and to the locales called empty, C and POSIX; every other name or category is refused with a null pointer.", "quantifier": "all categories and names", "why_tests_cant": "the names are unbounded", "anchors": ["src/locale/setlocale.c:setlocale"]}
{"id": "C147", "title": "int and unsigned convert to long double exactly", "statement": "Converting any int or unsigned to long double gives exactly that number, with positive zero for 0.", "quantifier": "all 2^32 values of each type", "why_tests_cant": "the conversion assembles the representation from that of a double; a test samples few bit patterns", "anchors": ["src/soft/float/floatsitf.c:__floatsitf", "src/soft/float/floatunsitf.c:__floatunsitf"]}
{"id": "C148", "title": "swscanf scans wide text as scanf scans bytes", "statement": "For every text and format of Unicode characters, swscanf returns the number of items C11 prescribes for the scan of the characters and stores the objects it prescribes, strings in UTF-8; if text or format contain something that is not a character, or memory runs out, it returns -1 and stores nothing.", "quantifier": "all texts, formats, scans that C11 defines, and allocation outcomes", "why_tests_cant": "texts and formats are unbounded; the library scans the UTF-8 encoding, so that every way in which bytes differ from characters matters", "anchors": ["src/wchar/vswscanf.c:vswscanf", "src/wchar/swscanf.c:swscanf", "src/stdio/vfscanf.c:vfscanf"]}
{"id": "C149", "title": "fwscanf scans the stream and leaves the rest of it", "statement": "For every stream of Unicode characters and every format, fwscanf returns and stores what C11 prescribes for the scan of the characters and leaves on the stream the characters the scan does not use; if the format contains something that is not a character, or memory runs out, it returns -1 and reads nothing.", "quantifier": "all streams, formats, scans that C11 defines, and allocation outcomes", "why_tests_cant": "streams and formats are unbounded; what is read ahead depends on both", "anchors": ["src/wchar/vfwscanf.c:vfwscanf", "src/wchar/fwscanf.c:fwscanf", "src/wchar/vwscanf.c:vwscanf", "src/wchar/wscanf.c:wscanf"]}
{"id": "C150", "title": "expf is accurate", "statement": "For every finite float x, expf(x) is the rounding of a number within a relative error of 2^-42 of the exponential of x, so one of the two floats around it, with correct overflow and underflow; it is 1 at zeros, at least 1 above and at most 1 below; the infinities give infinity and zero; a NaN gives a NaN.", "quantifier": "all floats", "why_tests_cant": "there are 2^32 arguments, and the exact exponential is not a float or rational, so a test needs a trusted reference of higher precision; that each operation rounds as analysed holds for all of them only by proof", "anchors": ["src/math/float/expf.c:expf", "src/math/float/kernel/expf.h:kernel_expf_", "src/math/double/shift.h:shift_"]}
{"id": "C151", "title": "exp2f is accurate and exact at integers", "statement": "For every finite float x, exp2f(x) is the rounding of a number within a relative error of 2^-38 of two to the power x; if that power is a float, it is the result.", "quantifier": "all floats", "why_tests_cant": "as C150", "anchors": ["src/math/float/exp2f.c:exp2f", "src/math/float/kernel/exp2f.h:kernel_exp2f_"]}
{"id": "C152", "title": "expm1f is accurate near zero and everywhere", "statement": "For every finite float x, expm1f(x) is the rounding of a number within a relative error of 2^-39 of exp(x) - 1; it has the sign of x, zeros included, and is never below -1.", "quantifier": "all floats", "why_tests_cant": "as C150; the relative error near zero, where exp(x) - 1 cancels, is the point of the function", "anchors": ["src/math/float/expm1f.c:expm1f", "src/math/float/expm1f.h:expm1f_"]}
{"id": "C153", "title": "sinhf, coshf and tanhf are accurate", "statement": "For every finite float x, sinhf(x), coshf(x) and tanhf(x) are roundings of numbers within a relative error of 2^-38 of the hyperbolic functions; coshf is at least 1, tanhf within -1 and 1; sinhf and tanhf have the sign of x; overflow is correct also where the exponential inside overflows.", "quantifier": "all floats", "why_tests_cant": "as C150; near the limit of the double exponential the exponent overflows", "anchors": ["src/math/float/sinhf.c:sinhf", "src/math/float/coshf.c:coshf", "src/math/float/tanhf.c:tanhf", "src/math/float/expf.h:expf_"]}
{"id": "C154", "title": "logf is accurate", "statement": "For every positive finite float x, subnormal ones included, logf(x) is the rounding of a number within a relative error of 2^-36 of the natural logarithm of x, also next to 1 where the logarithm vanishes; it is positive above 1, negative below and +0 at 1; zeros give minus infinity, negative numbers NaN, infinity itself, a NaN a NaN.", "quantifier": "all floats", "why_tests_cant": "there are 2^31 arguments and the exact logarithm needs a trusted reference of higher precision; the relative error near 1, where the logarithm vanishes, must be analysed", "anchors": ["src/math/float/logf.c:logf", "src/math/float/kernel/atanhf.h:kernel_atanhf_", "src/math/float/normalizef.h:normalizef_"]}
{"id": "C155", "title": "log2f and log10f are accurate, and exact where possible", "statement": "For every positive finite float x, log2f(x) and log10f(x) are roundings of numbers within a relative error of 2^-36 of the logarithms to base 2 and 10; whenever the exact logarithm is a float, as at powers of the base, it is the result; signs and special values as for C154.", "quantifier": "all floats", "why_tests_cant": "as C154; exactness at all powers follows from the error bound, not from single cases", "anchors": ["src/math/float/log2f.c:log2f", "src/math/float/log10f.c:log10f"]}
{"id": "C156", "title": "log1pf is accurate near zero and everywhere", "statement": "For every finite float x above -1, log1pf(x) is the rounding of a number within a relative error of 2^-35 of log(1 + x); it has the sign of x, zeros included; -1 gives minus infinity, smaller numbers NaN, infinity itself, a NaN a NaN.", "quantifier": "all floats", "why_tests_cant": "as C154; the relative error near zero is the point of the function", "anchors": ["src/math/float/log1pf.c:log1pf", "src/math/float/finite/log1pf.h:log1pf_"]}
{"id": "C157", "title": "asinhf, acoshf and atanhf are accurate", "statement": "For every finite float x of their domains, asinhf(x), acoshf(x) and atanhf(x) are roundings of numbers within a relative error of 2^-35 of the inverse hyperbolic functions, also next to 0, to 1 for acoshf and to -1 and 1 for atanhf; signs are right; outside the domains the result is NaN, at -1 and 1 atanhf is infinite.", "quantifier": "all floats", "why_tests_cant": "as C154; cancellation at the ends of the domains", "anchors": ["src/math/float/asinhf.c:asinhf", "src/math/float/acoshf.c:acoshf", "src/math/float/atanhf.c:atanhf"]}
{"id": "C158", "title": "cbrtf is accurate", "statement": "For every finite float x, subnormal ones included, cbrtf(x) is the rounding of a number within a relative error of 2^-45 of the real cube root of x; cubes have exact roots; the function is odd; zeros, infinities and NaN are returned; nothing inside overflows or is undefined.", "quantifier": "all floats", "why_tests_cant": "all 2^32 arguments against a trusted reference; the convergence of the iteration is a statement about reals", "anchors": ["src/math/float/cbrtf.c:cbrtf", "src/math/float/cbrtf.c:kernel_"]}
{"id": "C159", "title": "atanf is accurate", "statement": "For every finite float x, atanf(x) is the rounding of a number within a relative error of 2^-40 of the arc tangent of x; it has the sign of x and never exceeds the float next to pi/2, which it is at the infinities; zeros are kept; a NaN gives a NaN.", "quantifier": "all floats", "why_tests_cant": "as C158; the error of a quotient of polynomials over a whole interval", "anchors": ["src/math/float/atanf.c:atanf", "src/math/float/kernel/atanf.h:kernel_atanf_"]}
{"id": "C160", "title": "asinf and acosf are accurate", "statement": "For every float x from -1 to 1, asinf(x) and acosf(x) are roundings of numbers within a relative error of 2^-36 of the arc sine and the arc cosine, also next to 1 where the arc cosine vanishes; signs and ranges are right; outside the domain, at infinities and for NaN the result is NaN.", "quantifier": "all floats", "why_tests_cant": "as C158; cancellation next to 1", "anchors": ["src/math/float/asinf.c:asinf", "src/math/float/acosf.c:acosf", "src/math/float/kernel/asin.h:kernel_asin_"]}
{"id": "C161", "title": "sinf and cosf are accurate for all floats", "statement": "For every finite float x, up to the largest, sinf(x) and cosf(x) are roundings of numbers within a relative error of 2^-26 of the sine and the cosine of x, hence the exact value or one of the two floats next to it; they have the right signs and stay within [-1, 1]; sinf keeps zeros, cosf is 1 there; infinities and NaN give NaN; no conversion or shift inside is undefined.", "quantifier": "all floats", "why_tests_cant": "all 2^32 arguments against a reference with hundreds of digits; how near a float comes to a multiple of pi/2 is a question of number theory", "anchors": ["src/math/float/sinf.c:sinf", "src/math/float/cosf.c:cosf", "src/math/float/rem_pio2f.c:__rem_pio2f", "src/math/float/kernel/sinf.h:kernel_sinf_", "src/math/float/kernel/sincosf.h:kernel_cosf_"]}
{"id": "C162", "title": "tanf is accurate for all floats, poles included", "statement": "For every finite float x, tanf(x) is the rounding of a number within a relative error of 2^-26 of the tangent of x; no float is a pole, so that the result is finite and at most 2^53 in magnitude, with the right sign; zeros are kept; infinities and NaN give NaN; the table of digits of 2/pi is never read out of bounds.", "quantifier": "all floats", "why_tests_cant": "as C161; next to a pole any error in the reduction is magnified", "anchors": ["src/math/float/tanf.c:tanf", "src/math/float/rem_pio2f.c:__rem_pio2f", "src/math/float/rem_pio2f.c:segment_"]}
{"id": "C163", "title": "powf handles all special cases of C11 F.10.4.4", "statement": "For all floats: powf(x, 0) and powf(1, y) are 1 even for NaN; other NaN arguments give NaN; powers of zeros and infinities are zeros or infinities, with the sign of the base exactly for odd integral exponents; infinite exponents give 0, 1 or infinity as the magnitude of the base is below, at or above 1; a negative finite base with a non-integral finite exponent gives NaN.", "quantifier": "all pairs of floats", "why_tests_cant": "2^64 pairs; whether a float is an odd integer is decided by rounding tests", "anchors": ["src/math/float/powf.c:powf", "src/math/float/powf.c:unsigned_"]}
{"id": "C164", "title": "powf is correctly rounded", "statement": "For finite x and y, powf(x, y) is x to the power y, correctly rounded, with the sign of odd powers of negative bases.", "quantifier": "all pairs of finite floats with a real power", "why_tests_cant": "2^64 pairs and a reference of arbitrary precision; the hard cases next to midpoints are rare", "anchors": ["src/math/float/powf.c:powf", "src/math/float/powf.c:powf_core_", "src/math/float/powf.c:log2_fast_", "src/math/float/powf.c:poly_f64_", "src/math/float/powf.c:exp2_dd_", "src/math/float/log2_dd.h", "src/math/float/dd.h", "src/math/double/fma.c:fma"]}
{"id": "C165", "title": "atan2f and cargf handle all special cases of C11 F.10.1.4", "statement": "For all floats: a zero y gives y for a positive x or a positive zero, and \u03c0 with the sign of y for a negative x or a negative zero; a zero x gives \u03c0/2 with the sign of y; infinities give \u00b1\u03c0/2, \u00b10, \u00b1\u03c0, \u00b1\u03c0/4 and \u00b13\u03c0/4 as C11 says; NaN gives NaN. cargf(z) is the same function of the imaginary and the real part.", "quantifier": "all pairs of floats with a zero, an infinity or a NaN", "why_tests_cant": "about 2^34 pairs, on both sides of the branch cut", "anchors": ["src/math/float/atan2f.h:atan2f_", "src/math/float/atan2f.c:atan2f", "src/math/float/cargf.c:cargf"]}
{"id": "C166", "title": "atan2f and cargf are correctly rounded", "statement": "For finite x and y that are not both zero, atan2f(y, x) is the argument of x + iy, correctly rounded, with the sign of y and not above \u03c0 rounded.", "quantifier": "all pairs of finite floats", "why_tests_cant": "2^64 pairs and a reference of arbitrary precision; the values next to midpoints, where another path is taken, are rare", "anchors": ["src/math/float/atan2f.h:atan2f_", "src/math/float/atan2f.h:atan2f_accurate_", "src/math/float/atan2f.h:atan2f_gap_", "src/math/float/atan2f.h:atan2f_exact_quot_", "src/math/float/atan2f.h:dd_to_float_", "src/math/float/kernel/atanf.h:kernel_atanf_"]}
{"id": "C167", "title": "csinhf, ccoshf, csinf and ccosf are accurate in both parts", "statement": "For every z with finite parts, each part of csinhf(z), ccoshf(z), csinf(z) and ccosf(z) is the rounding of a number within a relative error of 2^-26 of that part of the hyperbolic or trigonometric function of z, so one of the two floats around it, with the right sign, also for angles up to the largest float, near multiples of \u03c0/2, and where the hyperbolic factor overflows a float or even a double.", "quantifier": "all pairs of finite floats", "why_tests_cant": "2^64 arguments with a transcendental reference; the two factors of a part may overflow and nearly vanish at the same time", "anchors": ["src/math/float/csinhf.h:csinhf_", "src/math/float/ccoshf.h:ccoshf_", "src/math/float/cisf.h:cisf_", "src/math/float/csinhf.c:csinhf", "src/math/float/ccoshf.c:ccoshf", "src/math/float/csinf.c:csinf", "src/math/float/ccosf.c:ccosf"]}
{"id": "C168", "title": "csinhf and ccoshf handle the special cases of C11 Annex G", "statement": "An infinite real part with a finite angle gives infinities in the direction of the angle, and zeros keep the product of the signs for a zero angle; an infinite or NaN angle gives NaN except for the part that does not depend on it; a NaN as the real part gives NaN.", "quantifier": "all pairs of floats with an infinity or a NaN", "why_tests_cant": "about 2^33 pairs; the direction is that of the exact sine and cosine", "anchors": ["src/math/float/csinhf.h:csinhf_", "src/math/float/ccoshf.h:ccoshf_", "src/math/float/expm1f.h:expm1f_"]}
{"id": "C169", "title": "ctanhf and ctanf are accurate in both parts", "statement": "For every z with finite parts, each part of ctanhf(z) and ctanf(z) is the rounding of a number within a relative error of 7/2^27 of that part of the hyperbolic or trigonometric tangent of z, with the right sign unless it is zero, also next to the poles, for angles up to the largest float, where the hyperbolic functions overflow and where a part underflows.", "quantifier": "all pairs of finite floats", "why_tests_cant": "2^64 arguments with a transcendental reference; next to a pole both the numerator and the denominator nearly vanish", "anchors": ["src/math/float/ctanhf.c:ctanhf", "src/math/float/ctanf.c:ctanf", "src/math/float/cisf.h:cisf_", "src/math/float/expm1f.h:expm1f_"]}
{"id": "C170", "title": "ctanhf and ctanf handle the special cases of C11 Annex G", "statement": "An infinite real part gives one with its sign and a zero with the sign of the sine of twice a finite angle; a finite real part with an infinite or NaN angle gives NaN; a NaN as the real part gives NaN; ctanhf commutes with conjugation, so a zero imaginary part keeps its sign.", "quantifier": "all pairs of floats with a zero, an infinity or a NaN", "why_tests_cant": "about 2^33 pairs; the sign is that of the exact sine", "anchors": ["src/math/float/ctanhf.c:ctanhf", "src/math/float/ctanf.c:ctanf", "src/math/float/kernel/sinf.h"]}
{"id": "C171", "title": "clogf is the complex logarithm", "statement": "For every z with finite parts that is not zero, both parts of clogf(z) are those of the principal logarithm, correctly rounded.  An infinite part gives a real part of plus infinity, also beside a NaN, and the argument of the infinite direction; zero gives minus infinity and zero or pi with the sign of the imaginary part; a NaN without an infinity gives NaN in both parts.", "quantifier": "all pairs of floats", "why_tests_cant": "2^64 arguments with a transcendental reference; the wrong results need an exact cancellation inside fma", "anchors": ["src/math/float/clogf.c:clogf", "src/math/float/clogf.c:clogf_re_", "src/math/float/log2_dd.h:log2_dd_", "src/math/float/dd.h", "src/math/float/atan2f.h:atan2f_"]}
{"id": "C172", "title": "csqrtf is the principal square root", "statement": "csqrtf(z) is the principal square root with both parts correctly rounded.  An infinite imaginary part gives an infinite real part, even beside a NaN; an infinite real part gives zero beside infinity in the order its sign asks for; zero gives zero with the sign of the imaginary part; other NaNs give NaN.", "quantifier": "all pairs of floats", "why_tests_cant": "2^64 arguments; only real numbers, tiny results and results near midpoints take the second path", "anchors": ["src/math/float/csqrtf.c:csqrtf", "src/math/float/csqrtf.c:csqrtf_finite_", "src/math/float/dd.h:dd_sqrt_"]}
{"id": "C173", "title": "catanf and catanhf handle the special cases of C11 Annex G", "statement": "catanhf is catanf with exchanged parts; catanf is odd in each part, for zeros, infinities and NaN too; infinities give pi/2 and a signed zero; the poles give an infinity; a NaN gives NaN except that the imaginary part is zero beside an infinity or a zero.", "quantifier": "all pairs of floats (symmetry); all pairs with an infinity or a NaN, and the poles", "why_tests_cant": "about 2^33 pairs in the special cases and 2^64 in the symmetries", "anchors": ["src/math/float/catanf.h:catanf_", "src/math/float/catanf.c:catanf", "src/math/float/catanhf.c:catanhf"]}
{"id": "C174", "title": "casinhf, casinf, cacoshf and cacosf handle the special cases of C11 Annex G", "statement": "casinf is casinhf with exchanged parts, and cacosf follows from cacoshf; casinhf is odd in each part; infinities give an infinity and the angle of their direction (0, pi/4, pi/2, 3pi/4 or pi); a NaN gives NaN unless beside an infinity or a zero; zeros give exact results with their signs.", "quantifier": "all pairs of floats (symmetry); all pairs with an infinity or a NaN, and the zeros", "why_tests_cant": "about 2^33 pairs in the special cases and 2^64 in the symmetries", "anchors": ["src/math/float/casinhf.h:casinhf_", "src/math/float/casinhf.c:casinhf", "src/math/float/casinf.c:casinf", "src/math/float/cacoshf.h:cacoshf_", "src/math/float/cacoshf.c:cacoshf", "src/math/float/cacosf.c:cacosf", "src/math/float/finite/cashf.h:cashf_"]}
