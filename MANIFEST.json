{
 "claims": [
  {
   "property": "C01",
   "status": "proved",
   "theorems": [
    "Verif.Ctype.C01_ctype_classes",
    "Verif.Ctype.C01_undefined_below"
   ],
   "note": "for every int except the 97 smallest, where ctype macros overflow signed arithmetic (C01_undefined_below)"
  },
  {
   "property": "C02",
   "status": "proved",
   "theorems": [
    "Verif.Ctype.C02_case_mapping",
    "Verif.Ctype.C02_case_inverse"
   ],
   "note": ""
  },
  {
   "property": "C03",
   "status": "proved",
   "theorems": [
    "Verif.Str.C03_memmove"
   ],
   "note": ""
  },
  {
   "property": "C04",
   "status": "proved",
   "theorems": [
    "Verif.Str.C04_memcpy"
   ],
   "note": ""
  },
  {
   "property": "C05",
   "status": "proved",
   "theorems": [
    "Verif.Str.C05_strlen"
   ],
   "note": ""
  },
  {
   "property": "C06",
   "status": "proved",
   "theorems": [
    "Verif.Str.C06_strchr"
   ],
   "note": ""
  },
  {
   "property": "C07",
   "status": "partial",
   "theorems": [
    "Verif.Str.C07_memchr_partial",
    "Verif.Str.C07_memchr_overruns"
   ],
   "note": "violated: a misaligned range that ends before the next multiple of 8 and lacks the character is searched past its end (C07_memchr_overruns); proved otherwise"
  },
  {
   "property": "C08",
   "status": "partial",
   "theorems": [
    "Verif.Str.C08_memset_partial",
    "Verif.Str.C08_memset_overruns"
   ],
   "note": "violated: a misaligned range that ends before the next multiple of 8 overruns memory (C08_memset_overruns); proved otherwise"
  },
  {
   "property": "C09",
   "status": "proved",
   "theorems": [
    "Verif.Str.C09_memcmp",
    "Verif.Str.C09_strcmp",
    "Verif.Str.C09_strncmp"
   ],
   "note": ""
  },
  {
   "property": "C10",
   "status": "proved",
   "theorems": [
    "Verif.Str.C10_strcpy",
    "Verif.Str.C10_strcat"
   ],
   "note": "the returned pointer is the argument by inspection and not modelled"
  },
  {
   "property": "C100",
   "status": "proved",
   "theorems": [
    "Verif.Decimal.C100_infinite"
   ],
   "note": ""
  },
  {
   "property": "C101",
   "status": "partial",
   "theorems": [
    "Verif.Decimal.C101_nan_partial",
    "Verif.Decimal.C101_letters"
   ],
   "note": "values proved for every tag, endptr for numeric tags; other tags are left (C101_letters)"
  },
  {
   "property": "C102",
   "status": "partial",
   "theorems": [
    "Verif.Decimal.C102_room_partial",
    "Verif.Decimal.C102_overflow"
   ],
   "note": "proved for decimal numbers of at most 4000 digits; false beyond (C102_overflow: the 256-limb buffer overflows)"
  },
  {
   "property": "C103",
   "status": "partial",
   "theorems": [
    "Verif.Scanf.C103_scanf_partial",
    "Verif.Scanf.C103_zero",
    "Verif.Scanf.C103_percent",
    "Verif.Scanf.C103_percent_space",
    "Verif.Scanf.C103_long",
    "Verif.Scanf.C103_long_real",
    "Verif.Scanf.C103_chars",
    "Verif.Scanf.C103_suppressed",
    "Verif.Scanf.C103_min",
    "Verif.Scanf.C103_incomplete",
    "Verif.Scanf.C103_infi",
    "Verif.Scanf.C103_pushed"
   ],
   "note": "proved for all formats and inputs except the cases where the library differs from the standard, each with a witness: numbers of more than 127 characters, integers outside 64 bits and -2^63, zeros and integer failures that use up the field width, partial %c, %%, incomplete floating-point numbers, input failure after suppressed conversions only"
  },
  {
   "property": "C104",
   "status": "partial",
   "theorems": [
    "Verif.Scanf.C104_any_partial",
    "Verif.Scanf.C104_width"
   ],
   "note": "missing: signed conversions of inputs with a minus sign, where -2^63 is undefined (C103_min), and field widths of ten digits or more, which overflow (C104_width)"
  },
  {
   "property": "C105",
   "status": "proved",
   "theorems": [
    "Verif.Wide.C105_find",
    "Verif.Wide.C105_wmemchr",
    "Verif.Wide.C105_spans",
    "Verif.Wide.C105_wcsstr"
   ],
   "note": ""
  },
  {
   "property": "C106",
   "status": "proved",
   "theorems": [
    "Verif.Wide.C106_copy",
    "Verif.Wide.C106_wcsncpy",
    "Verif.Wide.C106_wcsncat",
    "Verif.Wide.C106_wmemset",
    "Verif.Wide.C106_wcsxfrm",
    "Verif.Wide.C106_wmemmove"
   ],
   "note": ""
  },
  {
   "property": "C107",
   "status": "proved",
   "theorems": [
    "Verif.Wide.C107_wcscmp",
    "Verif.Wide.C107_wcsncmp",
    "Verif.Wide.C107_wmemcmp"
   ],
   "note": ""
  },
  {
   "property": "C108",
   "status": "proved",
   "theorems": [
    "Verif.Wide.C108_wcstok"
   ],
   "note": ""
  },
  {
   "property": "C109",
   "status": "partial",
   "theorems": [
    "Verif.Wide.C109_signed_partial",
    "Verif.Wide.C109_unsigned_partial",
    "Verif.Wide.C109_none",
    "Verif.Wide.C109_long"
   ],
   "note": "proved when the subject sequence ends within the first 127 characters; beyond, the string is cut (C109_long: 127 zeros before a 1, 127 blanks before a 1); LONG_MIN and LLONG_MIN as for C32"
  },
  {
   "property": "C11",
   "status": "partial",
   "theorems": [
    "Verif.Str.C11_strncpy_partial",
    "Verif.Str.C11_strncpy_overruns"
   ],
   "note": "violated through memset when the padding is misaligned and short (C11_strncpy_overruns); proved otherwise"
  },
  {
   "property": "C110",
   "status": "partial",
   "theorems": [
    "Verif.Wide.C110_wcstod_partial",
    "Verif.Wide.C110_wcstof_partial",
    "Verif.Wide.C110_infinite",
    "Verif.Wide.C110_long"
   ],
   "note": "proved as for C68, C70, C99 and C100 when the subject sequence ends within the first 255 characters; beyond, the string is cut (C110_long)"
  },
  {
   "property": "C111",
   "status": "partial",
   "theorems": [
    "Verif.Wio.C111_fgetwc",
    "Verif.Wio.C111_text",
    "Verif.Wio.C111_end",
    "Verif.Wio.C111_cut",
    "Verif.Wio.C111_read_error"
   ],
   "note": "decoding proved for every file behaviour; violated at the end of a file inside a character (end indicator instead of an encoding error, C111_cut) and by read errors (the end indicator is set too, C111_read_error)"
  },
  {
   "property": "C112",
   "status": "partial",
   "theorems": [
    "Verif.Wio.C112_fgetws",
    "Verif.Wio.C112_line",
    "Verif.Wio.C112_error_hidden"
   ],
   "note": "violated after an encoding error inside a line: the part before it is returned (C112_error_hidden)"
  },
  {
   "property": "C113",
   "status": "proved",
   "theorems": [
    "Verif.Wio.C113_fputws",
    "Verif.Wio.C113_fputwc",
    "Verif.Wio.C113_roundtrip"
   ],
   "note": ""
  },
  {
   "property": "C114",
   "status": "partial",
   "theorems": [
    "Verif.Wio.C114_ungetwc",
    "Verif.Wio.C114_rejected",
    "Verif.Wio.C114_clearerr",
    "Verif.Wio.C114_clearerr_lost",
    "Verif.Wio.C114_fseek_kept"
   ],
   "note": "violated by clearerr, which forgets the character, and by fseek, which keeps it"
  },
  {
   "property": "C115",
   "status": "partial",
   "theorems": [
    "Verif.Wio.C115_fixed",
    "Verif.Wio.C115_set",
    "Verif.Wio.C115_report",
    "Verif.Wio.C115_bytes"
   ],
   "note": "violated by the byte functions, which never give a stream byte orientation (C115_bytes)"
  },
  {
   "property": "C116",
   "status": "partial",
   "theorems": [
    "Verif.Wio.C116_text_partial",
    "Verif.Wio.C116_malformed",
    "Verif.Wio.C116_bad_format",
    "Verif.Wio.C116_empty_buffer",
    "Verif.Wio.C116_no_memory",
    "Verif.Wio.C116_truncated",
    "Verif.Wio.C116_cut",
    "Verif.Wio.C116_precision"
   ],
   "note": "exact when the text fits, for the formats of C46; violated by texts that do not fit (cap - 1 is returned instead of a negative value, C116_truncated), and by precisions, which count bytes: a character cut by one disappears (C116_cut, C116_precision)"
  },
  {
   "property": "C117",
   "status": "partial",
   "theorems": [
    "Verif.Wio.C117_fwprintf_partial",
    "Verif.Wio.C117_bad_format",
    "Verif.Wio.C117_counts_bytes",
    "Verif.Wio.C117_malformed_passed"
   ],
   "note": "for the formats of C46; the value returned counts bytes (C117_counts_bytes) and malformed strings are passed on (C117_malformed_passed)"
  },
  {
   "property": "C118",
   "status": "partial",
   "theorems": [
    "Verif.Printf.C118_large_partial",
    "Verif.Printf.C118_moderate_partial",
    "Verif.Printf.C118_small_partial",
    "Verif.Printf.C118_small_exact_partial",
    "Verif.Printf.C118_nonfinite",
    "Verif.Printf.C118_wrong"
   ],
   "note": "exact from 2^64 on; error below 1/2 + 2^-49 units in the last place from 2^-8 to 2^64, correctly rounded there without decimals; error at most 0.55 units below 2^-8 whenever the call reads no limb that was not written, exact for zeros and with 1074 decimals or more; violated next to ties: the double 0.005 is above 0.005 but %.2f prints 0.00 (C118_wrong)"
  },
  {
   "property": "C119",
   "status": "partial",
   "theorems": [
    "Verif.Printf.C119_scratch_partial",
    "Verif.Printf.C119_overruns",
    "Verif.Printf.C119_zero_overruns",
    "Verif.Printf.C119_small_overruns"
   ],
   "note": "no overrun from 2^-8 to 99 and from 2^64 on; violated by every number from 100 to 2^64 (C119_overruns), by zeros (C119_zero_overruns) and by others below 2^-8, such as 0.001 (C119_small_overruns)"
  },
  {
   "property": "C12",
   "status": "partial",
   "theorems": [
    "Verif.Str.C12_strncat_partial",
    "Verif.Str.C12_strncat_unterminated"
   ],
   "note": "violated: no terminator when n is at most the source length (C12_strncat_unterminated); proved for larger n"
  },
  {
   "property": "C120",
   "status": "partial",
   "theorems": [
    "Verif.Printf.C120_exact",
    "Verif.Printf.C120_padded",
    "Verif.Printf.C120_rounded_partial",
    "Verif.Printf.C120_nonfinite",
    "Verif.Printf.C120_lost_zeros"
   ],
   "note": "violated by zeros and subnormal numbers with a precision from 1 to 12: the digits are not filled up with zeros on the left, %.3a of 0x0.01p-1022 prints 0x1.0p-1022 (C120_lost_zeros)"
  },
  {
   "property": "C121",
   "status": "partial",
   "theorems": [
    "Verif.Printf.C121_exact",
    "Verif.Printf.C121_padded",
    "Verif.Printf.C121_rounded_partial",
    "Verif.Printf.C121_nonfinite",
    "Verif.Printf.C121_lost_zeros"
   ],
   "note": "violated as C120 is, with precisions from 1 to 27 (C121_lost_zeros)"
  },
  {
   "property": "C122",
   "status": "partial",
   "theorems": [
    "Verif.Printf.C122_no_exponents",
    "Verif.Printf.C122_no_long_double"
   ],
   "note": "violated by all of them: the call ends there and returns -2 (C122_no_exponents, C122_no_long_double)"
  },
  {
   "property": "C123",
   "status": "partial",
   "theorems": [
    "Verif.Int128.C123_signed_partial",
    "Verif.Int128.C123_unsigned",
    "Verif.Int128.C123_min_is_undefined"
   ],
   "note": "violated by -2^127, which __int128 can hold: the shift of the signed upper half overflows (C123_min_is_undefined)"
  },
  {
   "property": "C124",
   "status": "proved",
   "theorems": [
    "Verif.Arith.C124_abs",
    "Verif.Arith.C124_div"
   ],
   "note": ""
  },
  {
   "property": "C125",
   "status": "partial",
   "theorems": [
    "Verif.Arith.C125_exact",
    "Verif.Arith.C125_reciprocal_partial",
    "Verif.Arith.C125_order",
    "Verif.Arith.C125_min_is_undefined"
   ],
   "note": "negative exponents are covered if the reciprocal of the base is representable; violated by the exponent INT_MIN, whose negation overflows even if the base is 1 (C125_min_is_undefined)"
  },
  {
   "property": "C126",
   "status": "proved",
   "theorems": [
    "Verif.Cplx.C126_infinite",
    "Verif.Cplx.C126_exact"
   ],
   "note": ""
  },
  {
   "property": "C127",
   "status": "partial",
   "theorems": [
    "Verif.Cplx.C127_infinite_dividend",
    "Verif.Cplx.C127_zero_divisor",
    "Verif.Cplx.C127_infinite_divisor_partial",
    "Verif.Cplx.C127_nan"
   ],
   "note": "violated by (DBL_MAX + i DBL_MAX) / (inf + i inf), which has a NaN part because the numerator overflows; proved if it does not"
  },
  {
   "property": "C128",
   "status": "partial",
   "theorems": [
    "Verif.Cplx.C128_power_partial",
    "Verif.Cplx.C128_overflow"
   ],
   "note": "violated by (DBL_MAX + i DBL_MAX) / (1 + i); proved for divisors that are real powers of two"
  },
  {
   "property": "C129",
   "status": "partial",
   "theorems": [
    "Verif.Cplx.C129_infinite",
    "Verif.Cplx.C129_zero_nan",
    "Verif.Cplx.C129_conjugate",
    "Verif.Cplx.C129_half_plane",
    "Verif.Cplx.C129_real_partial",
    "Verif.Cplx.C129_violated"
   ],
   "note": "violated for large and small numbers: the root of 2^600 is infinite, that of i 2^-600 is i times infinity, that of 2^-1074 has a NaN part; real numbers are right from 2^-511 to 2^511"
  },
  {
   "property": "C13",
   "status": "proved",
   "theorems": [
    "Verif.Str.C13_strspn",
    "Verif.Str.C13_strcspn",
    "Verif.Str.C13_strpbrk"
   ],
   "note": ""
  },
  {
   "property": "C130",
   "status": "partial",
   "theorems": [
    "Verif.Cplx.C130_special",
    "Verif.Cplx.C130_violated"
   ],
   "note": "violated: away from the unit circle the logarithm of the reduced modulus is added twice, and squares overflow; only infinities, zeros and NaNs are right"
  },
  {
   "property": "C131",
   "status": "proved",
   "theorems": [
    "Verif.Cplx.C131_cproj",
    "Verif.Cplx.C131_conj"
   ],
   "note": ""
  },
  {
   "property": "C132",
   "status": "partial",
   "theorems": [
    "Verif.Life.C132_fclose_partial",
    "Verif.Life.C132_errno_lost",
    "Verif.Life.C132_standard"
   ],
   "note": "violated: errno is always EPERM after a failure, and a standard stream is passed to free; the rest is proved"
  },
  {
   "property": "C133",
   "status": "partial",
   "theorems": [
    "Verif.Life.C133_step",
    "Verif.Life.C133_balance",
    "Verif.Life.C133_all_closed",
    "Verif.Life.C133_no_memory",
    "Verif.Life.C133_freopen_standard",
    "Verif.Life.C133_append_forgotten"
   ],
   "note": "proved for every sequence of calls that has defined behaviour; undefined are fopen when malloc fails, and fclose or a failing freopen of a standard stream"
  },
  {
   "property": "C134",
   "status": "partial",
   "theorems": [
    "Verif.Life.C134_roundtrip_partial",
    "Verif.Life.C134_large",
    "Verif.Life.C134_append_skips",
    "Verif.Life.C134_pushback_kept"
   ],
   "note": "violated from 2 GiB on, on streams opened for appending, and by a character pushed back with ungetwc"
  },
  {
   "property": "C135",
   "status": "proved",
   "theorems": [
    "Verif.Life.C135_remove",
    "Verif.Life.C135_rename",
    "Verif.Life.C135_outside"
   ],
   "note": "for hosts that say EISDIR when asked to unlink a directory"
  },
  {
   "property": "C136",
   "status": "partial",
   "theorems": [
    "Verif.Life.C136_distinct",
    "Verif.Life.C136_known_partial",
    "Verif.Life.C136_unnamed"
   ],
   "note": "violated: 26 of the errors the host may report have no message"
  },
  {
   "property": "C137",
   "status": "proved",
   "theorems": [
    "Verif.Utf.C137_no_memory",
    "Verif.Utf.C137_wctomb",
    "Verif.Utf.C137_invalid_bytes",
    "Verif.Utf.C137_invalid_wide",
    "Verif.Utf.C137_strings"
   ],
   "note": ""
  },
  {
   "property": "C138",
   "status": "partial",
   "theorems": [
    "Verif.Decimal.C138_strtod_partial",
    "Verif.Decimal.C138_strtof_partial",
    "Verif.Decimal.C138_strtold_partial",
    "Verif.Decimal.C138_prefix_partial",
    "Verif.Decimal.C138_twice",
    "Verif.Decimal.C138_stray"
   ],
   "note": "violated: subnormal results of more digits than the type has are rounded twice, an exponent after 0x without digits is consumed, the end of 0x0. is one short; correct rounding is proved for all other strings of up to 7000 characters (3800 for long double)"
  },
  {
   "property": "C139",
   "status": "proved",
   "theorems": [
    "Verif.Trip.C139_double",
    "Verif.Trip.C139_long"
   ],
   "note": "for widths up to 6000 (3000 for long double)"
  },
  {
   "property": "C14",
   "status": "proved",
   "theorems": [
    "Verif.Str.C14_strrchr"
   ],
   "note": ""
  },
  {
   "property": "C140",
   "status": "partial",
   "theorems": [
    "Verif.Trip.C140_signed_partial",
    "Verif.Trip.C140_unsigned"
   ],
   "note": "all values but the least of intmax_t, long and int, which the parsers overflow on (C32_min_undefined); zero with the precision 0 has no digits"
  },
  {
   "property": "C141",
   "status": "proved",
   "theorems": [
    "Verif.Hyp.C141_hypotf",
    "Verif.Hyp.C141_exact",
    "Verif.Hyp.C141_symmetric",
    "Verif.Hyp.C141_special"
   ],
   "note": "against the real square root of Mathlib"
  },
  {
   "property": "C142",
   "status": "proved",
   "theorems": [
    "Verif.Host.C142_clock",
    "Verif.Host.C142_timespec_get",
    "Verif.Host.C142_time_partial"
   ],
   "note": "time: host errors that WASI does not define are excluded (C52 shows that they read outside a table)"
  },
  {
   "property": "C143",
   "status": "partial",
   "theorems": [
    "Verif.Host.C143_fields_partial",
    "Verif.Host.C143_stat_partial",
    "Verif.Host.C143_lstat_partial",
    "Verif.Host.C143_fstat_partial",
    "Verif.Host.C143_violated"
   ],
   "note": "false for sizes from 2^63 and link counts from 2^32, which are truncated (C143_violated); the directory table has the defects of C51"
  },
  {
   "property": "C144",
   "status": "partial",
   "theorems": [
    "Verif.Host.C144_difftime_partial",
    "Verif.Host.C144_violated"
   ],
   "note": "true for times up to 2^53; beyond, both operands are rounded before the subtraction and neighbouring times differ by 0"
  },
  {
   "property": "C145",
   "status": "partial",
   "theorems": [
    "Verif.Host.C145_fits_partial",
    "Verif.Host.C145_too_long",
    "Verif.Host.C145_failure",
    "Verif.Host.C145_empty_violated"
   ],
   "note": "an empty text (format empty or percent Z) leaves the array without terminator (C145_empty_violated)"
  },
  {
   "property": "C146",
   "status": "proved",
   "theorems": [
    "Verif.Host.C146_setlocale"
   ],
   "note": ""
  },
  {
   "property": "C147",
   "status": "proved",
   "theorems": [
    "Verif.Quad.C147_unsigned",
    "Verif.Quad.C147_signed"
   ],
   "note": ""
  },
  {
   "property": "C148",
   "status": "partial",
   "theorems": [
    "Verif.Wscan.C148_text_partial",
    "Verif.Wscan.C148_ascii_partial",
    "Verif.Wscan.C148_failure",
    "Verif.Wscan.C148_violated"
   ],
   "note": "all text for formats of white space, ordinary characters, numbers and %s without width, ASCII text for all formats; false for %c, %n, %[ and widths on other text, and for %ls (C148_violated); what C103 leaves out is left out here too"
  },
  {
   "property": "C149",
   "status": "partial",
   "theorems": [
    "Verif.Wscan.C149_text_partial",
    "Verif.Wscan.C149_left_partial",
    "Verif.Wscan.C149_lost",
    "Verif.Wscan.C149_failure"
   ],
   "note": "as C148; the character that ends an item is lost (C149_lost), at most one for ASCII text"
  },
  {
   "property": "C15",
   "status": "proved",
   "theorems": [
    "Verif.Str.C15_strtok_r"
   ],
   "note": ""
  },
  {
   "property": "C150",
   "status": "partial",
   "theorems": [
    "Verif.Approx.C150_expf",
    "Verif.Approx.C150_expf_special",
    "Verif.Approx.C150_expf_range",
    "Verif.Approx.C150_nan_violated"
   ],
   "note": "proved for all finite and infinite floats; false for NaN, whose conversion to int64_t is undefined in C (C150_nan_violated)"
  },
  {
   "property": "C151",
   "status": "proved",
   "theorems": [
    "Verif.Approx.C151_exp2f",
    "Verif.Approx.C151_exp2f_exact",
    "Verif.Approx.C151_exp2f_special"
   ],
   "note": "all finite floats, hard-coded results included; for NaN see C150"
  },
  {
   "property": "C152",
   "status": "proved",
   "theorems": [
    "Verif.Approx.C152_expm1f",
    "Verif.Approx.C152_expm1f_sign",
    "Verif.Approx.C152_expm1f_special"
   ],
   "note": "all finite floats and infinities; for NaN see C150"
  },
  {
   "property": "C153",
   "status": "proved",
   "theorems": [
    "Verif.Approx.C153_sinhf",
    "Verif.Approx.C153_coshf",
    "Verif.Approx.C153_tanhf",
    "Verif.Approx.C153_range",
    "Verif.Approx.C153_special"
   ],
   "note": "all finite floats and infinities; for NaN see C150"
  },
  {
   "property": "C154",
   "status": "proved",
   "theorems": [
    "Verif.Approx.C154_logf",
    "Verif.Approx.C154_logf_sign",
    "Verif.Approx.C154_logf_special"
   ],
   "note": "all positive finite floats, hard-coded results included, and all special values"
  },
  {
   "property": "C155",
   "status": "proved",
   "theorems": [
    "Verif.Approx.C155_log2f",
    "Verif.Approx.C155_log10f",
    "Verif.Approx.C155_exact",
    "Verif.Approx.C155_sign",
    "Verif.Approx.C155_special"
   ],
   "note": "as C154"
  },
  {
   "property": "C156",
   "status": "proved",
   "theorems": [
    "Verif.Approx.C156_log1pf",
    "Verif.Approx.C156_log1pf_sign",
    "Verif.Approx.C156_log1pf_special"
   ],
   "note": "all floats"
  },
  {
   "property": "C157",
   "status": "proved",
   "theorems": [
    "Verif.Approx.C157_asinhf",
    "Verif.Approx.C157_acoshf",
    "Verif.Approx.C157_atanhf",
    "Verif.Approx.C157_sign",
    "Verif.Approx.C157_special"
   ],
   "note": "all floats"
  },
  {
   "property": "C158",
   "status": "proved",
   "theorems": [
    "Verif.Approx.C158_cbrtf",
    "Verif.Approx.C158_exact",
    "Verif.Approx.C158_odd",
    "Verif.Approx.C158_special"
   ],
   "note": "all floats"
  },
  {
   "property": "C159",
   "status": "proved",
   "theorems": [
    "Verif.Approx.C159_atanf",
    "Verif.Approx.C159_atanf_range",
    "Verif.Approx.C159_atanf_special"
   ],
   "note": "all floats"
  },
  {
   "property": "C16",
   "status": "partial",
   "theorems": [
    "Verif.Find.C16_memmem_partial",
    "Verif.Find.C16_memmem_sound",
    "Verif.Find.C16_memmem_misses",
    "Verif.Find.C16_strstr_partial",
    "Verif.Find.C16_strstr_misses"
   ],
   "note": "violated: factorize_ compares the index -1 as the largest size_t; memmem is correct for all haystacks exactly when the needle has both larger- and smaller-differing suffixes or neither (C16_memmem_partial, C16_memmem_misses); every returned position is an occurrence (C16_memmem_sound)"
  },
  {
   "property": "C160",
   "status": "proved",
   "theorems": [
    "Verif.Approx.C160_asinf",
    "Verif.Approx.C160_acosf",
    "Verif.Approx.C160_range",
    "Verif.Approx.C160_special"
   ],
   "note": "all floats, hard-coded results included"
  },
  {
   "property": "C161",
   "status": "proved",
   "theorems": [
    "Verif.Approx.C161_sinf",
    "Verif.Approx.C161_cosf",
    "Verif.Approx.C161_range",
    "Verif.Approx.C161_special"
   ],
   "note": "all floats, with the full argument reduction"
  },
  {
   "property": "C162",
   "status": "proved",
   "theorems": [
    "Verif.Approx.C162_tanf",
    "Verif.Approx.C162_range",
    "Verif.Approx.C162_special",
    "Verif.Approx.C162_table"
   ],
   "note": "all floats, with the full argument reduction"
  },
  {
   "property": "C163",
   "status": "proved",
   "theorems": [
    "Verif.Approx.C163_one",
    "Verif.Approx.C163_nan",
    "Verif.Approx.C163_zero_base",
    "Verif.Approx.C163_infinite_base",
    "Verif.Approx.C163_domain",
    "Verif.Approx.C163_infinite_exponent"
   ],
   "note": "all floats"
  },
  {
   "property": "C164",
   "status": "partial",
   "theorems": [
    "Verif.Approx.C164_powf_partial",
    "Verif.Approx.C164_powf_exact_partial",
    "Verif.Approx.C164_powf_violated",
    "Verif.Approx.C164_powf_square_violated"
   ],
   "note": "correctly rounded for all results between 2^-126 and 2^127 at a relative distance above 2^-38 from the midpoints of floats, hence exact whenever such a power is a float, and for results above 2^131 or below 2^-161; violated elsewhere, because the second attempt relies on fma, which is wrong under cancellation (C60): powf(2, 127) is 0.71 times 2^127, powf(4097, 2) is 13052638 instead of 16785408"
  },
  {
   "property": "C165",
   "status": "proved",
   "theorems": [
    "Verif.Approx.C165_zero",
    "Verif.Approx.C165_axis",
    "Verif.Approx.C165_infinite",
    "Verif.Approx.C165_constants",
    "Verif.Approx.C165_nan"
   ],
   "note": "all floats"
  },
  {
   "property": "C166",
   "status": "partial",
   "theorems": [
    "Verif.Approx.C166_atan2f_partial",
    "Verif.Approx.C166_range",
    "Verif.Approx.C166_atan2f_violated"
   ],
   "note": "for all finite arguments but for y = 0 (C165) the result is the argument within a relative error of 2^-39, rounded, hence one of the two floats around it, with the sign of y and not above the float next to \u03c0; correct rounding is violated in the third quadrant, where the second attempt adds the angle to \u03c0 instead of subtracting it: atan2f is not odd in y there"
  },
  {
   "property": "C167",
   "status": "proved",
   "theorems": [
    "Verif.Approx.C167_csinhf",
    "Verif.Approx.C167_ccoshf",
    "Verif.Approx.C167_csinf",
    "Verif.Approx.C167_ccosf"
   ],
   "note": "all finite arguments, however large"
  },
  {
   "property": "C168",
   "status": "partial",
   "theorems": [
    "Verif.Approx.C168_infinite",
    "Verif.Approx.C168_no_angle_partial",
    "Verif.Approx.C168_nan_violated"
   ],
   "note": "proved for all real parts but NaN; a NaN as the real part reaches the conversion of a NaN to an integer in expm1f_ (as C150), undefined behaviour, so that the last clause is violated"
  },
  {
   "property": "C169",
   "status": "proved",
   "theorems": [
    "Verif.Approx.C169_ctanhf",
    "Verif.Approx.C169_ctanf"
   ],
   "note": "all finite arguments; the bound adds the errors of the sine, the cosine and the denominator, so that the result may be the second float next to the exact one"
  },
  {
   "property": "C17",
   "status": "proved",
   "theorems": [
    "Verif.Int128.C17_multi3",
    "Verif.Int128.C17_full_product"
   ],
   "note": ""
  },
  {
   "property": "C170",
   "status": "partial",
   "theorems": [
    "Verif.Approx.C170_infinite_partial",
    "Verif.Approx.C170_no_angle_partial",
    "Verif.Approx.C170_zero_violated",
    "Verif.Approx.C170_nan_violated"
   ],
   "note": "violated for a negative zero angle, which gives a positive zero because its sine is computed as -0 plus a correction of +0, and for a NaN as the real part (undefined behaviour in expm1f_, as C150)"
  },
  {
   "property": "C171",
   "status": "partial",
   "theorems": [
    "Verif.Approx.C171_infinite",
    "Verif.Approx.C171_zero",
    "Verif.Approx.C171_nan",
    "Verif.Approx.C171_arg_partial",
    "Verif.Approx.C171_clogf_violated"
   ],
   "note": "the special cases and the imaginary part are proved; the real part is violated: clogf(1+i) has the real part 0, clogf(2) half the logarithm of two, because the double-double product relies on fma, which is wrong under cancellation (C60)"
  },
  {
   "property": "C172",
   "status": "partial",
   "theorems": [
    "Verif.Approx.C172_special_partial",
    "Verif.Approx.C172_csqrtf_partial",
    "Verif.Approx.C172_csqrtf_violated"
   ],
   "note": "the special cases are proved, and correct rounding at finite numbers of norm at least 2^-75 whose root has parts that are not subnormal and lie farther than 2^-38 (relatively) from midpoints of floats; violated elsewhere: csqrtf(1) is 1.159, because the refinement of the root relies on fma, which is wrong under cancellation (C60)"
  },
  {
   "property": "C173",
   "status": "proved",
   "theorems": [
    "Verif.Approx.C173_swap",
    "Verif.Approx.C173_symmetry",
    "Verif.Approx.C173_infinite",
    "Verif.Approx.C173_pole",
    "Verif.Approx.C173_nan"
   ],
   "note": "the accuracy at finite numbers is not part of the property"
  },
  {
   "property": "C174",
   "status": "proved",
   "theorems": [
    "Verif.Approx.C174_asin_swap",
    "Verif.Approx.C174_asinh_symmetry",
    "Verif.Approx.C174_asinh_infinite",
    "Verif.Approx.C174_asinh_nan",
    "Verif.Approx.C174_acos",
    "Verif.Approx.C174_acosh_infinite",
    "Verif.Approx.C174_acosh_nan",
    "Verif.Approx.C174_zero"
   ],
   "note": "the accuracy at finite numbers is not part of the property"
  },
  {
   "property": "C18",
   "status": "proved",
   "theorems": [
    "Verif.Int128.C18_udivmod"
   ],
   "note": ""
  },
  {
   "property": "C19",
   "status": "partial",
   "theorems": [
    "Verif.Int128.C19_divmod_partial",
    "Verif.Int128.C19_mod_min",
    "Verif.Int128.C19_min_is_undefined"
   ],
   "note": "exact for all operands except -2^127, where the code executes signed overflow (C19_min_is_undefined)"
  },
  {
   "property": "C20",
   "status": "proved",
   "theorems": [
    "Verif.Int128.C20_shl_shr",
    "Verif.Int128.C20_sar"
   ],
   "note": "signed left shifts read modulo 2^64 as clang compiles them"
  },
  {
   "property": "C21",
   "status": "partial",
   "theorems": [
    "Verif.Int128.C21_unsigned",
    "Verif.Int128.C21_signed_partial",
    "Verif.Int128.C21_min_is_undefined",
    "Verif.Int128.C21_di_to_long_double",
    "Verif.Int128.C21_signed_di_to_long_double"
   ],
   "note": "unsigned: all values; signed: all but the most negative one, whose negation overflows"
  },
  {
   "property": "C22",
   "status": "proved",
   "theorems": [
    "Verif.Utf.C22_wcrtomb_encodes",
    "Verif.Utf.C22_roundtrip",
    "Verif.Utf.C22_reencode"
   ],
   "note": ""
  },
  {
   "property": "C23",
   "status": "partial",
   "theorems": [
    "Verif.Utf.C23_accepts_well_formed",
    "Verif.Utf.C23_accepts_only_well_formed",
    "Verif.Utf.C23_error_is_definite",
    "Verif.Utf.C23_prefix_incomplete",
    "Verif.Utf.C23_incomplete_overreported",
    "Verif.Utf.C23_incomplete_partial"
   ],
   "note": "acceptance is exact; the code violates the incompleteness part: (size_t)-2 for bytes such as E0 80 that begin no well-formed sequence (C23_incomplete_overreported)"
  },
  {
   "property": "C24",
   "status": "proved",
   "theorems": [
    "Verif.Utf.C24_restartable"
   ],
   "note": ""
  },
  {
   "property": "C25",
   "status": "proved",
   "theorems": [
    "Verif.Utf.C25_wcrtomb_rejects"
   ],
   "note": ""
  },
  {
   "property": "C26",
   "status": "proved",
   "theorems": [
    "Verif.Utf.C26_utf16_to_utf8",
    "Verif.Utf.C26_utf8_to_utf16"
   ],
   "note": ""
  },
  {
   "property": "C27",
   "status": "partial",
   "theorems": [
    "Verif.Utf.C27_rejects_partial",
    "Verif.Utf.C27_violated"
   ],
   "note": "the code accepts two consecutive high surrogates (C27_violated)"
  },
  {
   "property": "C28",
   "status": "proved",
   "theorems": [
    "Verif.Time.C28_calendar",
    "Verif.Time.C28_unique",
    "Verif.Time.C28_gmtime"
   ],
   "note": "year and year-1900 must be ints"
  },
  {
   "property": "C29",
   "status": "proved",
   "theorems": [
    "Verif.Time.C29_mktime_gmtime"
   ],
   "note": ""
  },
  {
   "property": "C30",
   "status": "partial",
   "theorems": [
    "Verif.Time.C30_normalize_partial",
    "Verif.Time.C30_nonpositive_day_wrong"
   ],
   "note": "violated for tm_mday that reach before the last March 1 of a year divisible by 400 (unsigned day of era zero-extends); proved for all other inputs incl. every tm_mday >= 1"
  },
  {
   "property": "C31",
   "status": "proved",
   "theorems": [
    "Verif.Time.C31_text_exists",
    "Verif.Time.C31_fits",
    "Verif.Time.C31_too_long",
    "Verif.Time.C31_bounds"
   ],
   "note": ""
  },
  {
   "property": "C32",
   "status": "partial",
   "theorems": [
    "Verif.Strtol.C32_strtol_partial",
    "Verif.Strtol.C32_strtoll_partial",
    "Verif.Strtol.C32_strtoul",
    "Verif.Strtol.C32_strtoull",
    "Verif.Strtol.C32_no_conversion",
    "Verif.Strtol.C32_min_undefined"
   ],
   "note": "all strings and bases; the one missing case is the violation: a subject denoting LONG_MIN/LLONG_MIN overflows a signed multiplication (C32_min_undefined)"
  },
  {
   "property": "C33",
   "status": "partial",
   "theorems": [
    "Verif.Sort.C33_qsort_partial",
    "Verif.Sort.C33_low_address"
   ],
   "note": "every array, element size and consistent comparator, provided the array's address is at least one element size; below that the loop bound wraps (C33_low_address)"
  },
  {
   "property": "C34",
   "status": "partial",
   "theorems": [
    "Verif.Sort.C34_present_partial",
    "Verif.Sort.C34_absent_partial",
    "Verif.Sort.C34_diverges"
   ],
   "note": "violated: an absent key greater than the first element makes bsearch recurse forever (C34_diverges); proved for keys present and for absent keys below every element"
  },
  {
   "property": "C35",
   "status": "proved",
   "theorems": [
    "Verif.Process.C35_rand_range"
   ],
   "note": ""
  },
  {
   "property": "C36",
   "status": "partial",
   "theorems": [
    "Verif.Process.C36_stuck",
    "Verif.Process.C36_short_period",
    "Verif.Process.C36_partial"
   ],
   "note": "violated: the 32-bit product wraps, three seeds give a constant sequence and the default sequence has period 31396; determinism by seed holds (C36_partial)"
  },
  {
   "property": "C37",
   "status": "proved",
   "theorems": [
    "Verif.Process.C37_exit_lifo",
    "Verif.Process.C37_quick_exit_lifo",
    "Verif.Process.C37_exit_ends"
   ],
   "note": ""
  },
  {
   "property": "C38",
   "status": "proved",
   "theorems": [
    "Verif.Process.C38_capacity"
   ],
   "note": ""
  },
  {
   "property": "C39",
   "status": "partial",
   "theorems": [
    "Verif.Process.C39_abort_diverges",
    "Verif.Process.C39_abort_partial"
   ],
   "note": "violated for the default disposition of SIGABRT: abort raises and raise calls abort, forever; with a handler or SIG_IGN it exits with 134"
  },
  {
   "property": "C40",
   "status": "proved",
   "theorems": [
    "Verif.Process.C40_getenv",
    "Verif.Process.C40_failure"
   ],
   "note": ""
  },
  {
   "property": "C41",
   "status": "proved",
   "theorems": [
    "Verif.Process.C41_signal"
   ],
   "note": ""
  },
  {
   "property": "C42",
   "status": "proved",
   "theorems": [
    "Verif.Stdio.C42_stream_is_stack",
    "Verif.Stdio.C42_readback"
   ],
   "note": ""
  },
  {
   "property": "C43",
   "status": "proved",
   "theorems": [
    "Verif.Stdio.C43_fgets_any_file",
    "Verif.Stdio.C43_fgets_line"
   ],
   "note": ""
  },
  {
   "property": "C44",
   "status": "proved",
   "theorems": [
    "Verif.Stdio.C44_getdelim_any_file",
    "Verif.Stdio.C44_getdelim_no_buffer",
    "Verif.Stdio.C44_getdelim_line"
   ],
   "note": "lines shorter than 2 GiB, whose length fits ssize_t"
  },
  {
   "property": "C45",
   "status": "proved",
   "theorems": [
    "Verif.Printf.C45_any_output",
    "Verif.Printf.C45_snprintf_partial"
   ],
   "note": "C45_any_output: every sequence of writes; C45_snprintf_partial: from format and arguments, without f F a A"
  },
  {
   "property": "C46",
   "status": "partial",
   "theorems": [
    "Verif.Printf.C46_text_partial",
    "Verif.Printf.C46_min_undefined"
   ],
   "note": "every format of literals, %%, d i o u x X c s n with any flags, width, precision and length modifier; violated for the least intmax_t, whose negation overflows (C46_min_undefined)"
  },
  {
   "property": "C47",
   "status": "partial",
   "theorems": [
    "Verif.Printf.C47_scratch_partial",
    "Verif.Printf.C47_overruns"
   ],
   "note": "violated: DECIMAL_DIGITS evaluates to 1 (signed) and 2 (unsigned); every %d of two digits or more and every %u of three or more stores below its array; other conversions stay inside"
  },
  {
   "property": "C48",
   "status": "partial",
   "theorems": [
    "Verif.Printf.C48_precision_partial",
    "Verif.Printf.C48_precision_overrun",
    "Verif.Printf.C46_text_partial"
   ],
   "note": "violated: for a misaligned string whose precision ends before the next multiple of 8 the whole string is printed (C48_precision_overrun); proved otherwise, with memory ending right behind the string"
  },
  {
   "property": "C49",
   "status": "partial",
   "theorems": [
    "Verif.Scanf.C49_left_partial",
    "Verif.Scanf.C49_lost",
    "Verif.Scanf.C49_lost_literal"
   ],
   "note": "false in general: the character after an item or of a matching failure is taken from the stream and dropped (C49_lost, C49_lost_literal); at most one character is lost, and none when the input is exhausted or the last directive is an ordinary character or %c"
  },
  {
   "property": "C50",
   "status": "partial",
   "theorems": [
    "Verif.Stdio.C50_fread_partial",
    "Verif.Stdio.C50_fwrite_partial",
    "Verif.Stdio.C50_size_zero_divides",
    "Verif.Stdio.C50_short_delivery_is_not_the_end"
   ],
   "note": "violated for item size 0 (division by zero) and for files that deliver less than asked for (fread stops and reports the end of the file); proved: exact transfer and indicators for one request"
  },
  {
   "property": "C51",
   "status": "partial",
   "theorems": [
    "Verif.Wasi.C51_lookup_partial",
    "Verif.Wasi.C51_table",
    "Verif.Wasi.C51_root_not_found",
    "Verif.Wasi.C51_root_never_found",
    "Verif.Wasi.C51_dot_prefix_not_found"
   ],
   "note": "violated for a preopened / and for names starting with ./; proved for the table of trimmed names"
  },
  {
   "property": "C52",
   "status": "partial",
   "theorems": [
    "Verif.Wasi.C52_errno_partial",
    "Verif.Wasi.C52_unknown_reads_outside"
   ],
   "note": "violated for numbers above 76: the table is read out of bounds"
  },
  {
   "property": "C53",
   "status": "partial",
   "theorems": [
    "Verif.Process.C53_regions_partial",
    "Verif.Process.C53_step",
    "Verif.Process.C53_wraps"
   ],
   "note": "histories proved for memories of at most 2 GiB; above, brk + increment wraps (C53_wraps)"
  },
  {
   "property": "C54",
   "status": "proved",
   "theorems": [
    "Verif.Math.C54_fmod",
    "Verif.Math.C54_fmodf",
    "Verif.Math.C54_fmod_special"
   ],
   "note": "all doubles and floats; no undefined shift on any path"
  },
  {
   "property": "C55",
   "status": "proved",
   "theorems": [
    "Verif.Math.C55_nextafter",
    "Verif.Math.C55_nextafterf",
    "Verif.Math.C55_nextafter_nan"
   ],
   "note": "neighbour in the order of all non-NaN patterns, including infinities"
  },
  {
   "property": "C56",
   "status": "proved",
   "theorems": [
    "Verif.Math.C56_frexp",
    "Verif.Math.C56_frexpf",
    "Verif.Math.C56_frexp_special"
   ],
   "note": ""
  },
  {
   "property": "C57",
   "status": "proved",
   "theorems": [
    "Verif.Math.C57_scalbn",
    "Verif.Math.C57_scalbn_special",
    "Verif.Math.C57_scalbnf",
    "Verif.Math.C57_scalbnf_special"
   ],
   "note": "every integer n"
  },
  {
   "property": "C58",
   "status": "proved",
   "theorems": [
    "Verif.Math.C58_logb",
    "Verif.Math.C58_logbf",
    "Verif.Math.C58_logb_special"
   ],
   "note": ""
  },
  {
   "property": "C59",
   "status": "partial",
   "theorems": [
    "Verif.Math.C59_remquo_violated",
    "Verif.Math.C59_remquo_partial",
    "Verif.Math.C59_remquof_partial"
   ],
   "note": "the property is violated for negative divisors (the quotient has the sign of x); proved for the others, and the remainder and the low bits of the quotient for all"
  },
  {
   "property": "C60",
   "status": "partial",
   "theorems": [
    "Verif.Math.C60_fma_violated",
    "Verif.Math.C60_fma_absorbs",
    "Verif.Math.C60_fma_zero_partial",
    "Verif.Math.C60_fma_far_partial",
    "Verif.Approx.C60_fma_near_partial"
   ],
   "note": "the property is violated: fma(1,1,-1) is -1/4; proved when an argument is zero and when the addend dominates and is not a power of two of the opposite sign; a few units in the last place when the product is at most 3/4 of the addend"
  },
  {
   "property": "C61",
   "status": "partial",
   "theorems": [
    "Verif.Math.C61_lround_violated",
    "Verif.Math.C61_lround_partial"
   ],
   "note": "the property is violated exactly at +-0.49999999999999994; proved for all other finite doubles"
  },
  {
   "property": "C62",
   "status": "partial",
   "theorems": [
    "Verif.Quad.C62_nearbyintl_partial",
    "Verif.Quad.C62_nearbyintl_violated",
    "Verif.Quad.C62_nearbyintl_special"
   ],
   "note": "holds for long doubles that are doubles; fails beyond double precision, e.g. 2^60 + 1 (C62_nearbyintl_violated)"
  },
  {
   "property": "C63",
   "status": "proved",
   "theorems": [
    "Verif.Quad.C63_equal",
    "Verif.Quad.C63_less",
    "Verif.Quad.C63_greater",
    "Verif.Quad.C63_unordered"
   ],
   "note": ""
  },
  {
   "property": "C64",
   "status": "proved",
   "theorems": [
    "Verif.Quad.C64_mul",
    "Verif.Quad.C64_mul_nan",
    "Verif.Quad.C64_mul_inf"
   ],
   "note": ""
  },
  {
   "property": "C65",
   "status": "partial",
   "theorems": [
    "Verif.Quad.C65_add_partial",
    "Verif.Quad.C65_add_shifting_partial",
    "Verif.Quad.C65_add_undefined",
    "Verif.Quad.C65_sub_partial",
    "Verif.Quad.C65_add_nan",
    "Verif.Quad.C65_add_inf",
    "Verif.Quad.C65_sub_misrounds"
   ],
   "note": "operands of the same sign and exponent shift by 128, undefined in C (C65_add_undefined); correctly rounded otherwise, except that a power of two minus a number in the 114th binade below it is misrounded (C65_sub_misrounds)"
  },
  {
   "property": "C66",
   "status": "partial",
   "theorems": [
    "Verif.Quad.C66_extend_double",
    "Verif.Quad.C66_extend_float",
    "Verif.Quad.C66_trunc_float",
    "Verif.Quad.C66_trunc_double_partial",
    "Verif.Quad.C66_trunc_double_violated",
    "Verif.Quad.C66_roundtrip_double",
    "Verif.Quad.C66_roundtrip_float"
   ],
   "note": "all but long double to double, which is characterised exactly: wrong on ties below an even number and just below the normal range"
  },
  {
   "property": "C67",
   "status": "proved",
   "theorems": [
    "Verif.Quad.C67_truncl"
   ],
   "note": ""
  },
  {
   "property": "C68",
   "status": "partial",
   "theorems": [
    "Verif.Decimal.C68_strtod_partial",
    "Verif.Decimal.C68_many_digits",
    "Verif.Decimal.C68_long_digits"
   ],
   "note": "proved for up to 20 digits with any exponent, up to 38 digits with |exponent| <= 54, and up to 4000 digits when the exponent relative to the first 38 is at most 54 in size and those are not odd and just below a midpoint (sequences up to 31000 characters); false for 21 digits with a large exponent (C68_many_digits) and for digits beyond the 38th deciding a midpoint (C68_long_digits)"
  },
  {
   "property": "C69",
   "status": "partial",
   "theorems": [
    "Verif.Decimal.C69_none_partial",
    "Verif.Decimal.C69_exponent_alone"
   ],
   "note": "proved unless an exponent part follows the optional sign and point, where the exponent is consumed (C69_exponent_alone)"
  },
  {
   "property": "C70",
   "status": "partial",
   "theorems": [
    "Verif.Decimal.C70_strtof_partial",
    "Verif.Decimal.C70_twice",
    "Verif.Decimal.C70_forced"
   ],
   "note": "proved as for C68 unless the nearest double is a midpoint of floats and the value is not, where the value is rounded twice (C70_twice), and unless there are more than 38 digits and the nearest double ends in a one and 28 zeros, where the result may be two units off (C70_forced)"
  },
  {
   "property": "C71",
   "status": "proved",
   "theorems": [
    "Verif.Ctype.C71_iswctype",
    "Verif.Ctype.C71_unknown_name",
    "Verif.Ctype.C71_towctrans"
   ],
   "note": ""
  },
  {
   "property": "C72",
   "status": "proved",
   "theorems": [
    "Verif.Utf.C72_wcsrtombs",
    "Verif.Utf.C72_mbsrtowcs",
    "Verif.Utf.C72_string_roundtrip"
   ],
   "note": ""
  },
  {
   "property": "C73",
   "status": "proved",
   "theorems": [
    "Verif.Time.C73_asctime_bounds",
    "Verif.Time.C73_asctime_text"
   ],
   "note": ""
  },
  {
   "property": "C74",
   "status": "partial",
   "theorems": [
    "Verif.Strtol.C74_atoi_partial",
    "Verif.Strtol.C74_min_undefined"
   ],
   "note": "INT_MIN/LONG_MIN/LLONG_MIN overflow"
  },
  {
   "property": "C75",
   "status": "partial",
   "theorems": [
    "Verif.Process.C75_heap_overlaps_data"
   ],
   "note": "the property is violated: crt1.c initialises the break to 1..256, below the static data; only the negation is proved"
  },
  {
   "property": "C76",
   "status": "proved",
   "theorems": [
    "Verif.Str.C76_collate"
   ],
   "note": ""
  },
  {
   "property": "C77",
   "status": "partial",
   "theorems": [
    "Verif.Stdio.C77_putc_fputs",
    "Verif.Stdio.C77_puts_hides_failure"
   ],
   "note": "violated by puts"
  },
  {
   "property": "C78",
   "status": "partial",
   "theorems": [
    "Verif.Stdio.C78_ungetc_result_partial",
    "Verif.Stdio.C78_ungetc_result_not_converted"
   ],
   "note": "violated for arguments outside 0..255: the result is not converted"
  },
  {
   "property": "C79",
   "status": "partial",
   "theorems": [
    "Verif.Stdio.C79_ftell_partial",
    "Verif.Stdio.C79_fseek",
    "Verif.Stdio.C79_return_to_mark",
    "Verif.Stdio.C79_ftell_clears_eof",
    "Verif.Stdio.C79_ftell_append_skips"
   ],
   "note": "violated: ftell clears the end-of-file indicator and moves append streams to their end"
  },
  {
   "property": "C80",
   "status": "partial",
   "theorems": [
    "Verif.Stdio.C80_clearerr_partial",
    "Verif.Stdio.C80_clearerr_forgets_append"
   ],
   "note": "violated: the append bit is cleared too"
  },
  {
   "property": "C81",
   "status": "proved",
   "theorems": [
    "Verif.Wasi.C81_fopen_mode"
   ],
   "note": ""
  },
  {
   "property": "C82",
   "status": "partial",
   "theorems": [
    "Verif.Wasi.C82_rights_partial",
    "Verif.Wasi.C82_creation_asks_for_directories"
   ],
   "note": "violated: __WASI_RIGHTS_PATH_CREATE_FILE has the bit of path_create_directory"
  },
  {
   "property": "C83",
   "status": "partial",
   "theorems": [
    "Verif.Printf.C83_fprintf_partial"
   ],
   "note": "for the formats of C46_text_partial"
  },
  {
   "property": "C84",
   "status": "partial",
   "theorems": [
    "Verif.Printf.C84_width_ignored",
    "Verif.Printf.C46_text_partial"
   ],
   "note": "violated: the field width is ignored by %c and %s (C84_width_ignored); proved when the text is as wide as the field"
  },
  {
   "property": "C85",
   "status": "partial",
   "theorems": [
    "Verif.Printf.C85_asprintf_partial"
   ],
   "note": "for the formats of C46_text_partial"
  },
  {
   "property": "C86",
   "status": "partial",
   "theorems": [
    "Verif.Printf.C86_no_exponent_conversions"
   ],
   "note": "the property is violated: the conversions are missing and the call returns -2; only the negation is proved"
  },
  {
   "property": "C87",
   "status": "proved",
   "theorems": [
    "Verif.Math.C87_nexttoward",
    "Verif.Math.C87_nexttowardf",
    "Verif.Math.C87_nexttoward_nan"
   ],
   "note": "long double conversions and comparisons are taken as exact"
  },
  {
   "property": "C88",
   "status": "proved",
   "theorems": [
    "Verif.Math.C88_remainder",
    "Verif.Math.C88_remainderf",
    "Verif.Math.C88_remainder_special"
   ],
   "note": ""
  },
  {
   "property": "C89",
   "status": "proved",
   "theorems": [
    "Verif.Math.C89_llround",
    "Verif.Math.C89_lroundf",
    "Verif.Math.C89_llroundf"
   ],
   "note": ""
  },
  {
   "property": "C90",
   "status": "proved",
   "theorems": [
    "Verif.Math.C90_round",
    "Verif.Math.C90_roundf",
    "Verif.Math.C90_round_special"
   ],
   "note": ""
  },
  {
   "property": "C91",
   "status": "proved",
   "theorems": [
    "Verif.Math.C91_lrint",
    "Verif.Math.C91_lrintf"
   ],
   "note": "rint itself is a wasm instruction"
  },
  {
   "property": "C92",
   "status": "proved",
   "theorems": [
    "Verif.Math.C92_modf",
    "Verif.Math.C92_modf_inf"
   ],
   "note": ""
  },
  {
   "property": "C93",
   "status": "proved",
   "theorems": [
    "Verif.Math.C93_fmax",
    "Verif.Math.C93_fmax_nan",
    "Verif.Math.C93_fdim"
   ],
   "note": ""
  },
  {
   "property": "C94",
   "status": "partial",
   "theorems": [
    "Verif.Quad.C94_to_int",
    "Verif.Quad.C94_to_unsigned",
    "Verif.Quad.C94_to_llong",
    "Verif.Quad.C94_to_ullong",
    "Verif.Quad.C94_to_u128",
    "Verif.Quad.C94_to_i128_partial",
    "Verif.Quad.C94_least_undefined"
   ],
   "note": "conversion of -2^127 to __int128 overflows (C94_least_undefined); all others proved"
  },
  {
   "property": "C95",
   "status": "proved",
   "theorems": [
    "Verif.Quad.C95_ldexpl",
    "Verif.Quad.C95_ldexpl_special"
   ],
   "note": ""
  },
  {
   "property": "C96",
   "status": "proved",
   "theorems": [
    "Verif.Quad.C96_nexttowardl",
    "Verif.Quad.C96_nexttowardl_nan"
   ],
   "note": ""
  },
  {
   "property": "C97",
   "status": "partial",
   "theorems": [
    "Verif.Quad.C97_div_nan_partial",
    "Verif.Quad.C97_div_special_partial",
    "Verif.Quad.C97_div_violated"
   ],
   "note": "special operands proved; finite quotients are misrounded for some operands (C97_div_violated)"
  },
  {
   "property": "C98",
   "status": "partial",
   "theorems": [
    "Verif.Quad.C98_sqrt_nan_partial",
    "Verif.Quad.C98_sqrt_special_partial",
    "Verif.Quad.C98_sqrt_violated"
   ],
   "note": "special operands proved; roots of numbers near 1 may be off by more than 100 units in the last place (C98_sqrt_violated)"
  },
  {
   "property": "C99",
   "status": "partial",
   "theorems": [
    "Verif.Decimal.C99_end_partial",
    "Verif.Decimal.C99_point_left"
   ],
   "note": "proved for every decimal except zeros with a final point, whose point is left (C99_point_left); hexadecimal forms not covered"
  }
 ]
}