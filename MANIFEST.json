{
 "claims": [
  {
   "property": "C01",
   "status": "partial",
   "theorems": [
    "BigIntegerCpp.C01_int32",
    "BigIntegerCpp.C01_uint32",
    "BigIntegerCpp.C01_uint64",
    "BigIntegerCpp.C01_int64_partial",
    "BigIntegerCpp.C01_int64_min_is_undefined",
    "BigIntegerCpp.C01_int64_exact_iff"
   ],
   "note": "int64_t constructor: proved for every value except INT64_MIN, where the code negates INT64_MIN (undefined behaviour, proved)."
  },
  {
   "property": "C02",
   "status": "partial",
   "theorems": [
    "BigIntegerCpp.C02_unique",
    "BigIntegerCpp.C02_exists",
    "BigIntegerCpp.C02_every_result_is_canonical_partial",
    "BigIntegerCpp.C02_equal_results_are_identical",
    "BigIntegerCpp.C02_equals_on_results",
    "BigIntegerCpp.C02_programs_keep_objects_canonical",
    "BigIntegerCpp.C02_parts_checked",
    "BigIntegerCpp.C02_parts_release",
    "BigIntegerCpp.C02_parts_exact_iff",
    "BigIntegerCpp.C02_parts_unchecked_fails"
   ],
   "note": "Every object reachable by any chain of public calls is canonical, and canonical objects of equal value are identical. The exception is the public BigInteger(int, uint_array) in a release build, refuted with a witness; there the property holds exactly on canonical pairs (C02_parts_exact_iff)."
  },
  {
   "property": "C03",
   "status": "proved",
   "theorems": [
    "BigIntegerCpp.C03_compare_to",
    "BigIntegerCpp.C03_operators",
    "BigIntegerCpp.C03_max_min"
   ],
   "note": ""
  },
  {
   "property": "C04",
   "status": "proved",
   "theorems": [
    "BigIntegerCpp.C04_hash",
    "BigIntegerCpp.C04_python_hash"
   ],
   "note": "Canonical form makes equal values identical, so any hash of them agrees."
  },
  {
   "property": "C05",
   "status": "proved",
   "theorems": [
    "BigIntegerCpp.C05_add"
   ],
   "note": ""
  },
  {
   "property": "C06",
   "status": "proved",
   "theorems": [
    "BigIntegerCpp.C06_subtract"
   ],
   "note": ""
  },
  {
   "property": "C07",
   "status": "proved",
   "theorems": [
    "BigIntegerCpp.C07_negate",
    "BigIntegerCpp.C07_plus",
    "BigIntegerCpp.C07_abs",
    "BigIntegerCpp.C07_sign"
   ],
   "note": ""
  },
  {
   "property": "C08",
   "status": "proved",
   "theorems": [
    "BigIntegerCpp.C08_prefix",
    "BigIntegerCpp.C08_postfix"
   ],
   "note": ""
  },
  {
   "property": "C09",
   "status": "proved",
   "theorems": [
    "BigIntegerCpp.C09_multiply"
   ],
   "note": ""
  },
  {
   "property": "C10",
   "status": "proved",
   "theorems": [
    "BigIntegerCpp.C10_divide",
    "BigIntegerCpp.C10_divide_magnitudes"
   ],
   "note": ""
  },
  {
   "property": "C11",
   "status": "proved",
   "theorems": [
    "BigIntegerCpp.C11_remainder",
    "BigIntegerCpp.C11_division_identity"
   ],
   "note": ""
  },
  {
   "property": "C12",
   "status": "proved",
   "theorems": [
    "BigIntegerCpp.C12_divide_by_zero"
   ],
   "note": ""
  },
  {
   "property": "C13",
   "status": "partial",
   "theorems": [
    "BigIntegerCpp.C13_div_rem_partial",
    "BigIntegerCpp.C13_wrong_remainder",
    "BigIntegerCpp.C13_refuted",
    "BigIntegerCpp.C13_exact_iff"
   ],
   "note": "False of the code when the dividend needs words, the divisor does not and the remainder is negative: the stored remainder is 2^32 too large (proved); everything else proved."
  },
  {
   "property": "C14",
   "status": "partial",
   "theorems": [
    "BigIntegerCpp.C14_div_rem_partial",
    "BigIntegerCpp.C14_distinct",
    "BigIntegerCpp.C14_over_dividend",
    "BigIntegerCpp.C14_over_divisor",
    "BigIntegerCpp.C14_over_divisor_small",
    "BigIntegerCpp.C14_self",
    "BigIntegerCpp.C14_over_dividend_exact_iff",
    "BigIntegerCpp.C14_over_divisor_exact_iff",
    "BigIntegerCpp.C14_self_exact_iff",
    "BigIntegerCpp.C14_refuted"
   ],
   "note": "False of the code: exact description of what every aliased call returns; e.g. div_rem(7,2,a) with remainder = a returns 0, div_rem(6,3,b) with remainder = b divides an int by zero. Right for non-negative operands not both in the int range, and whenever remainder is a third object."
  },
  {
   "property": "C15",
   "status": "proved",
   "theorems": [
    "BigIntegerCpp.C15_pow",
    "BigIntegerCpp.C15_overflow",
    "BigIntegerCpp.C15_total",
    "BigIntegerCpp.C15_negative_exponent"
   ],
   "note": "Sizes below 2^31-1 words; overflow_error is thrown by the conservative bound 1 + e*words."
  },
  {
   "property": "C16",
   "status": "partial",
   "theorems": [
    "BigIntegerCpp.C16_mod_pow_partial",
    "BigIntegerCpp.C16_below_992_bits",
    "BigIntegerCpp.C16_nonneg",
    "BigIntegerCpp.C16_wrong_sign",
    "BigIntegerCpp.C16_refuted",
    "BigIntegerCpp.C16_exact_iff"
   ],
   "note": "Exact for moduli below 2^992 except that a negative remainder by an int-sized modulus comes back with 2^32 added (proved); larger moduli are C18."
  },
  {
   "property": "C17",
   "status": "partial",
   "theorems": [
    "BigIntegerCpp.C17_negative_exponent",
    "BigIntegerCpp.C17_zero_modulus_partial",
    "BigIntegerCpp.C17_unchecked",
    "BigIntegerCpp.C17_refuted",
    "BigIntegerCpp.C17_exact_iff"
   ],
   "note": "Zero modulus with an int-sized value and an exponent of 2^32 or more divides by zero unchecked (proved)."
  },
  {
   "property": "C18",
   "status": "partial",
   "theorems": [
    "BigIntegerCpp.C18_mod_pow_partial",
    "BigIntegerCpp.C18_unreduced",
    "BigIntegerCpp.C18_square",
    "BigIntegerCpp.C18_overrun",
    "BigIntegerCpp.C18_refuted",
    "BigIntegerCpp.C18_every_odd_modulus",
    "BigIntegerCpp.C18_every_modulus",
    "BigIntegerCpp.C18_modulus_exact_iff"
   ],
   "note": "False in general: the Barrett reducer only shortens the length. Proved where nothing needs reduction; general wrong-answer and buffer-overrun theorems for exponents 1 and 2; for every such modulus M mod_pow(M, 1, M) is M, so among moduli beyond the int range all results are right exactly if the modulus is below 2^992."
  },
  {
   "property": "C19",
   "status": "partial",
   "theorems": [
    "BigIntegerCpp.C19_gcd_partial",
    "BigIntegerCpp.C19_below_64_bits",
    "BigIntegerCpp.C19_divisor",
    "BigIntegerCpp.C19_one_step",
    "BigIntegerCpp.C19_zero",
    "BigIntegerCpp.C19_wrong",
    "BigIntegerCpp.C19_low_word_replaced",
    "BigIntegerCpp.C19_wrong_every_size",
    "BigIntegerCpp.C19_exact_iff",
    "BigIntegerCpp.C19_refuted"
   ],
   "note": "Exact whenever no Lehmer step is taken (in particular if one operand is below 2^64, or divides the other); with a Lehmer step the answer can be wrong (gcd(2^96, 3*2^94) = 3, proved) or never come (C20). C19_exact_iff says for which operands it is right."
  },
  {
   "property": "C20",
   "status": "partial",
   "theorems": [
    "BigIntegerCpp.C20_terminates_partial",
    "BigIntegerCpp.C20_iterations",
    "BigIntegerCpp.C20_iterations_bound",
    "BigIntegerCpp.C20_bound_irrelevant",
    "BigIntegerCpp.C20_never_returns",
    "BigIntegerCpp.C20_never_returns_after",
    "BigIntegerCpp.C20_three_kinds",
    "BigIntegerCpp.C20_if_it_returns",
    "BigIntegerCpp.C20_diverges",
    "BigIntegerCpp.C20_aborts",
    "BigIntegerCpp.C20_cycles",
    "BigIntegerCpp.C20_decided",
    "BigIntegerCpp.C20_runs_forever_iff",
    "BigIntegerCpp.C20_refuted",
    "BigIntegerCpp.C20_close",
    "BigIntegerCpp.C20_fibonacci"
   ],
   "note": "False in general: for operands of equal length >= 3 words on whose leading bits a Lehmer step is taken the call never returns (proved for all of them). C20_decided, C20_runs_forever_iff: whether any call returns is decided by its first 2(log2|x| + log2|y|) + 3 iterations. C20_close, C20_fibonacci: any two numbers of equal length with a quotient between 1 + 2^-61 and 2 - 2^-60, consecutive Fibonacci numbers among them."
  },
  {
   "property": "C21",
   "status": "proved",
   "theorems": [
    "BigIntegerCpp.C21_shift_left"
   ],
   "note": ""
  },
  {
   "property": "C22",
   "status": "partial",
   "theorems": [
    "BigIntegerCpp.C22_shift_right_partial",
    "BigIntegerCpp.C22_shift_right_nonneg",
    "BigIntegerCpp.C22_floor",
    "BigIntegerCpp.C22_misfire",
    "BigIntegerCpp.C22_refuted",
    "BigIntegerCpp.C22_overflow",
    "BigIntegerCpp.C22_overflow_reached",
    "BigIntegerCpp.C22_exact_iff"
   ],
   "note": "False of the code on ShiftMisfires arguments, where >> returns 0 (proved); on negative values of 2^26 words or more every positive shift overflows an int (proved). C22_exact_iff: these are exactly the failing cases."
  },
  {
   "property": "C23",
   "status": "partial",
   "theorems": [
    "BigIntegerCpp.C23_shift_right_negative",
    "BigIntegerCpp.C23_shift_left_negative_partial",
    "BigIntegerCpp.C23_misfire",
    "BigIntegerCpp.C23_overflow",
    "BigIntegerCpp.C23_exact_iff"
   ],
   "note": "a << n for negative n inherits the misfiring arguments and the overflow of >>; C23_exact_iff shows these are the only failures."
  },
  {
   "property": "C24",
   "status": "proved",
   "theorems": [
    "BigIntegerCpp.C24_bits_determine",
    "BigIntegerCpp.C24_and",
    "BigIntegerCpp.C24_or",
    "BigIntegerCpp.C24_xor",
    "BigIntegerCpp.C24_not"
   ],
   "note": ""
  },
  {
   "property": "C25",
   "status": "partial",
   "theorems": [
    "BigIntegerCpp.C25_of_bytes_partial",
    "BigIntegerCpp.C25_of_bytes",
    "BigIntegerCpp.C25_strict_shift",
    "BigIntegerCpp.C25_exact_iff"
   ],
   "note": "Without exception as compiled by GCC/Clang or as C++20 (C25_of_bytes); in strict C++17 a negative value in at most 4 bytes left-shifts a negative int (undefined, proved)."
  },
  {
   "property": "C26",
   "status": "partial",
   "theorems": [
    "BigIntegerCpp.C26_signed_bytes_round_trip",
    "BigIntegerCpp.C26_signed_bytes_round_trip_partial",
    "BigIntegerCpp.C26_exact_iff"
   ],
   "note": "Full with GCC/Clang/C++20 shift semantics; in strict C++17 for values that are non-negative or below -2^31."
  },
  {
   "property": "C27",
   "status": "proved",
   "theorems": [
    "BigIntegerCpp.C27_unsigned_bytes_round_trip",
    "BigIntegerCpp.C27_unsigned_negative_throws"
   ],
   "note": ""
  },
  {
   "property": "C28",
   "status": "proved",
   "theorems": [
    "BigIntegerCpp.C28_minimal_bytes"
   ],
   "note": ""
  },
  {
   "property": "C29",
   "status": "partial",
   "theorems": [
    "BigIntegerCpp.C29_explicit_mode_partial",
    "BigIntegerCpp.C29_null_pointer",
    "BigIntegerCpp.C29_refuted",
    "BigIntegerCpp.C29_exact_iff"
   ],
   "note": "The counting mode, and zero in every mode, write through the null default pointer (proved)."
  },
  {
   "property": "C30",
   "status": "partial",
   "theorems": [
    "BigIntegerCpp.C30_to_string_partial",
    "BigIntegerCpp.C30_to_string_nonneg",
    "BigIntegerCpp.C30_misfire",
    "BigIntegerCpp.C30_too_long",
    "BigIntegerCpp.C30_refuted",
    "BigIntegerCpp.C30_exact_iff"
   ],
   "note": "False of the code on TextMisfires values (minus sign written in front of the buffer, proved); more than INT_MAX/10 words throws overflow_error (proved)."
  },
  {
   "property": "C31",
   "status": "proved",
   "theorems": [
    "BigIntegerCpp.C31_parse"
   ],
   "note": "For texts of less than 2^34 characters."
  },
  {
   "property": "C32",
   "status": "partial",
   "theorems": [
    "BigIntegerCpp.C32_text_round_trip_partial",
    "BigIntegerCpp.textValue_toString",
    "BigIntegerCpp.C32_refuted",
    "BigIntegerCpp.C32_exact_iff"
   ],
   "note": "Fails exactly where to_string fails (C30)."
  },
  {
   "property": "C33",
   "status": "partial",
   "theorems": [
    "BigIntegerCpp.C33_try_parse_partial",
    "BigIntegerCpp.C33_reports_parse",
    "BigIntegerCpp.C33_always_true",
    "BigIntegerCpp.C33_never_false",
    "BigIntegerCpp.C33_refuted",
    "BigIntegerCpp.C33_exact_iff"
   ],
   "note": "The answer is true on malformed texts as well (proved)."
  },
  {
   "property": "C34",
   "status": "partial",
   "theorems": [
    "BigIntegerCpp.C34_to_int_partial",
    "BigIntegerCpp.C34_int_min_is_undefined",
    "BigIntegerCpp.C34_to_uint",
    "BigIntegerCpp.C34_to_long_partial",
    "BigIntegerCpp.C34_long_min_is_undefined",
    "BigIntegerCpp.C34_to_ulong",
    "BigIntegerCpp.C34_int_exact_iff",
    "BigIntegerCpp.C34_long_exact_iff"
   ],
   "note": "Exact or overflow_error on every value except INT_MIN to int and LONG_MIN to long, where the code negates the most negative number (undefined behaviour, proved)."
  },
  {
   "property": "C35",
   "status": "proved",
   "theorems": [
    "BigIntegerCpp.C35_to_double_truncates",
    "BigIntegerCpp.C35_to_double_infinity",
    "BigIntegerCpp.C35_keepBits"
   ],
   "note": "operator float is C49."
  },
  {
   "property": "C36",
   "status": "proved",
   "theorems": [
    "BigIntegerCpp.C36_of_double",
    "BigIntegerCpp.C36_not_finite",
    "BigIntegerCpp.C36_round_trip"
   ],
   "note": ""
  },
  {
   "property": "C37",
   "status": "proved",
   "theorems": [
    "BigIntegerCpp.C37_bit_length"
   ],
   "note": ""
  },
  {
   "property": "C38",
   "status": "proved",
   "theorems": [
    "BigIntegerCpp.C38_is_zero",
    "BigIntegerCpp.C38_is_one",
    "BigIntegerCpp.C38_is_even",
    "BigIntegerCpp.C38_is_power_of_two"
   ],
   "note": ""
  },
  {
   "property": "C39",
   "status": "proved",
   "theorems": [
    "BigIntegerCpp.C39_add_comm",
    "BigIntegerCpp.C39_mul_comm",
    "BigIntegerCpp.C39_add_assoc",
    "BigIntegerCpp.C39_mul_assoc",
    "BigIntegerCpp.C39_distrib",
    "BigIntegerCpp.C39_add_mono",
    "BigIntegerCpp.C39_mul_mono"
   ],
   "note": ""
  },
  {
   "property": "C40",
   "status": "partial",
   "theorems": [
    "BigIntegerCpp.C40_program_partial",
    "BigIntegerCpp.C40_actual",
    "BigIntegerCpp.C40_actual_is_intended",
    "BigIntegerCpp.C40_complete",
    "BigIntegerCpp.C40_runs_forever_iff",
    "BigIntegerCpp.C40_refuted",
    "BigIntegerCpp.C40_throw_unchanged",
    "BigIntegerCpp.C40_no_hidden_fault",
    "BigIntegerCpp.C40_bound_irrelevant"
   ],
   "note": "Programs with loops, branches and try/catch. Values below 2^(2^31-32); statements that hit the faults of C13, C14, C22 are excluded by Stmt.Safe in C40_program_partial. C40_actual and C40_complete say what every program does, including those, and when it runs forever."
  },
  {
   "property": "C41",
   "status": "proved",
   "theorems": [
    "BigIntegerCpp.C41_program",
    "BigIntegerCpp.C41_same_object",
    "BigIntegerCpp.C41_operators"
   ],
   "note": "All theorems hold for every Cfg, so results of both builds coincide wherever a Returns theorem applies."
  },
  {
   "property": "C42",
   "status": "proved",
   "theorems": [
    "BigIntegerCpp.C42_to_uint32_array"
   ],
   "note": ""
  },
  {
   "property": "C43",
   "status": "proved",
   "theorems": [
    "BigIntegerCpp.C43_magnitude"
   ],
   "note": ""
  },
  {
   "property": "C44",
   "status": "partial",
   "theorems": [
    "BigIntegerCpp.C44_of_int_partial",
    "BigIntegerCpp.C44_of_int",
    "BigIntegerCpp.C44_strict_shift",
    "BigIntegerCpp.C44_to_int",
    "BigIntegerCpp.C44_round_trip",
    "BigIntegerCpp.C44_round_trip_back",
    "BigIntegerCpp.C44_strict_exact_iff"
   ],
   "note": "Proved with the shift semantics of GCC, Clang and C++20 for integers below 2^(2^34-184). Under the letter of C++17 small negative integers are undefined (C44_strict_shift), as in C25."
  },
  {
   "property": "C45",
   "status": "partial",
   "theorems": [
    "BigIntegerCpp.C45_binary",
    "BigIntegerCpp.C45_compare",
    "BigIntegerCpp.C45_shift_left_partial",
    "BigIntegerCpp.C45_shift_right_partial",
    "BigIntegerCpp.C45_shift_count",
    "BigIntegerCpp.C45_pow",
    "BigIntegerCpp.C45_pow_throws",
    "BigIntegerCpp.C45_divmod_partial",
    "BigIntegerCpp.C45_divmod_zero",
    "BigIntegerCpp.C45_divmod_refuted",
    "BigIntegerCpp.C45_pow_mod",
    "BigIntegerCpp.C45_shift_left_exact_iff",
    "BigIntegerCpp.C45_shift_right_exact_iff",
    "BigIntegerCpp.C45_divmod_exact_iff"
   ],
   "note": "Exact for + - * % / // & | ^, comparisons and ** in either operand order. divmod and shifts inherit the faults of C13, C22, C30 and C34, stated as hypotheses; C45_divmod_refuted gives witnesses."
  },
  {
   "property": "C46",
   "status": "proved",
   "theorems": [
    "BigIntegerCpp.C46_negative_value",
    "BigIntegerCpp.C46_base_one",
    "BigIntegerCpp.C46_base_infinity",
    "BigIntegerCpp.C46_base_zero",
    "BigIntegerCpp.C46_one_base_zero",
    "BigIntegerCpp.C46_bad_base",
    "BigIntegerCpp.C46_zero_value",
    "BigIntegerCpp.C46_exact",
    "BigIntegerCpp.C46_rounded",
    "BigIntegerCpp.C46_log10",
    "BigIntegerCpp.C46_ln"
   ],
   "note": "Special values hold for every rounding. C46_exact is the exact-arithmetic bound, C46_rounded adds a relative rounding error per operation (Fpu.Accurate); doubles are modelled as reals with NaN and infinities."
  },
  {
   "property": "C47",
   "status": "partial",
   "theorems": [
    "BigIntegerCpp.C47_never",
    "BigIntegerCpp.C47_refuted"
   ],
   "note": "False of the code: for every value in 0..2^55-1 the BigInteger equals the Python int and their hashes differ."
  },
  {
   "property": "C48",
   "status": "proved",
   "theorems": [
    "BigIntegerCpp.C48_classification",
    "BigIntegerCpp.C48_exclusive"
   ],
   "note": ""
  },
  {
   "property": "C49",
   "status": "partial",
   "theorems": [
    "BigIntegerCpp.C49_nearest_of_truncated",
    "BigIntegerCpp.C49_to_float_partial",
    "BigIntegerCpp.C49_below_53_bits",
    "BigIntegerCpp.C49_faithful",
    "BigIntegerCpp.C49_exact",
    "BigIntegerCpp.C49_infinity",
    "BigIntegerCpp.C49_exact_iff",
    "BigIntegerCpp.C49_refuted"
   ],
   "note": "False in general: the value is first cut to 53 bits, so a value just above a midpoint is rounded down (C49_refuted; C49_exact_iff: exactly on RoundsTwice values). What is computed is stated exactly (C49_nearest_of_truncated); the result is always one of the two neighbouring floats (C49_faithful)."
  },
  {
   "property": "C50",
   "status": "partial",
   "theorems": [
    "BigIntegerCpp.C50_add_computes",
    "BigIntegerCpp.C50_subtract_computes",
    "BigIntegerCpp.C50_add_partial",
    "BigIntegerCpp.C50_subtract_partial",
    "BigIntegerCpp.C50_refuted"
   ],
   "note": "What is computed is stated exactly; it is the sum (difference) if and only if both values are int-sized or the signs agree. False otherwise."
  },
  {
   "property": "C51",
   "status": "partial",
   "theorems": [
    "BigIntegerCpp.C51_gcd_words_partial",
    "BigIntegerCpp.C51_actual",
    "BigIntegerCpp.C51_exact_iff",
    "BigIntegerCpp.C51_objects",
    "BigIntegerCpp.C51_order_checked",
    "BigIntegerCpp.C51_wrong_order_release",
    "BigIntegerCpp.C51_refuted"
   ],
   "note": "Same restriction as C19/C20, exact for operands in order (C51_exact_iff). Operands in the wrong order stop a debug build; in a release build they are described when the larger one has at most two words."
  },
  {
   "property": "C52",
   "status": "partial",
   "theorems": [
    "BigIntegerCpp.C52_consecutive_bytes",
    "BigIntegerCpp.C52_buffer_partial",
    "BigIntegerCpp.C52_exact_iff",
    "BigIntegerCpp.C52_out_of_bounds_iff",
    "BigIntegerCpp.C52_bytes_object",
    "BigIntegerCpp.C52_other_format",
    "BigIntegerCpp.C52_bytes_round_trip",
    "BigIntegerCpp.C52_to_array",
    "BigIntegerCpp.C52_reversed",
    "BigIntegerCpp.C52_refuted"
   ],
   "note": "False of strided buffers: the stride is ignored, and a reversed view of three bytes or more is read out of bounds. Exact for contiguous buffers, and for every stride the exact condition (C52_exact_iff); shift semantics of GCC, Clang and C++20 as in C25."
  },
  {
   "property": "C53",
   "status": "partial",
   "theorems": [
    "BigIntegerCpp.C53_unary",
    "BigIntegerCpp.C53_constants",
    "BigIntegerCpp.C53_int",
    "BigIntegerCpp.C53_str_partial",
    "BigIntegerCpp.C53_str_exact_iff"
   ],
   "note": "str(a) inherits the out-of-bounds write of C30 (hypothesis of C53_str_partial); the rest is proved without exception below 2^(2^34)."
  },
  {
   "property": "C54",
   "status": "proved",
   "theorems": [
    "BigIntegerCpp.C54_accessors",
    "BigIntegerCpp.C54_rebuild",
    "BigIntegerCpp.C54_determine",
    "BigIntegerCpp.C54_constants",
    "BigIntegerCpp.C54_compare",
    "BigIntegerCpp.C54_named"
   ],
   "note": ""
  },
  {
   "property": "C55",
   "status": "proved",
   "theorems": [
    "BigIntegerCpp.C55_is_even",
    "BigIntegerCpp.C55_is_power_of_two",
    "BigIntegerCpp.C55_sign",
    "BigIntegerCpp.C55_bit_length",
    "BigIntegerCpp.C55_bit_length_agrees_iff",
    "BigIntegerCpp.C55_log_same",
    "BigIntegerCpp.C55_log_negative",
    "BigIntegerCpp.C55_log_base",
    "BigIntegerCpp.C55_log",
    "BigIntegerCpp.C55_log10"
   ],
   "note": "Logarithms relative to the accuracy of the floating-point unit (Fpu.Accurate); values below 2^(2^31-32)."
  },
  {
   "property": "C56",
   "status": "proved",
   "theorems": [
    "BigIntegerCpp.C56_expression",
    "BigIntegerCpp.C56_identity",
    "BigIntegerCpp.C56_distinguishes",
    "BigIntegerCpp.C56_laws",
    "BigIntegerCpp.C56_de_morgan"
   ],
   "note": "Intermediate results below 2^(2^31-32). Expressions with >> that hit the fault of C22 have no Value."
  },
  {
   "property": "C57",
   "status": "proved",
   "theorems": [
    "BigIntegerCpp.C57_add",
    "BigIntegerCpp.C57_add_self",
    "BigIntegerCpp.C57_subtract",
    "BigIntegerCpp.C57_subtract_self",
    "BigIntegerCpp.C57_compare",
    "BigIntegerCpp.C57_multiply",
    "BigIntegerCpp.C57_square",
    "BigIntegerCpp.C57_divide",
    "BigIntegerCpp.C57_divide_remainder",
    "BigIntegerCpp.C57_divide_word",
    "BigIntegerCpp.C57_remainder_word",
    "BigIntegerCpp.C57_multiply_word",
    "BigIntegerCpp.C57_add_word",
    "BigIntegerCpp.C57_subtract_word",
    "BigIntegerCpp.C57_add_model",
    "BigIntegerCpp.C57_subtract_model",
    "BigIntegerCpp.C57_multiply_model",
    "BigIntegerCpp.C57_square_model",
    "BigIntegerCpp.C57_divide_model"
   ],
   "note": "The *_model theorems say that the list functions of the other models are these pointer routines run on separate arrays, failures included."
  },
  {
   "property": "C58",
   "status": "proved",
   "theorems": [
    "BigIntegerCpp.C58_move",
    "BigIntegerCpp.C58_self_move",
    "BigIntegerCpp.C58_swap",
    "BigIntegerCpp.C58_moved_from_is_usable"
   ],
   "note": "That std::vector is left empty by a move is taken from the standard libraries. A self-move keeps only values of the int range."
  },
  {
   "property": "C59",
   "status": "partial",
   "theorems": [
    "BigIntegerCpp.C59_arithmetic",
    "BigIntegerCpp.C59_unary",
    "BigIntegerCpp.C59_shifts",
    "BigIntegerCpp.C59_comparisons",
    "BigIntegerCpp.C59_queries",
    "BigIntegerCpp.C59_log",
    "BigIntegerCpp.C59_division",
    "BigIntegerCpp.C59_pow",
    "BigIntegerCpp.C59_mod_pow",
    "BigIntegerCpp.C59_gcd_throws_nothing",
    "BigIntegerCpp.C59_gcd_partial",
    "BigIntegerCpp.C59_gcd_exact_iff",
    "BigIntegerCpp.C59_constructors",
    "BigIntegerCpp.C59_double",
    "BigIntegerCpp.C59_conversions",
    "BigIntegerCpp.C59_bytes",
    "BigIntegerCpp.C59_parse",
    "BigIntegerCpp.C59_python",
    "BigIntegerCpp.C59_statement",
    "BigIntegerCpp.C59_program"
   ],
   "note": "greatest_common_divisor ends if one operand is below 2^64; on some other pairs it does not (C20), exactly those of C59_gcd_exact_iff."
  },
  {
   "property": "C60",
   "status": "partial",
   "theorems": [
    "BigIntegerCpp.C60_constants",
    "BigIntegerCpp.C60_ready",
    "BigIntegerCpp.C60_early_int32_partial",
    "BigIntegerCpp.C60_early_int64_partial",
    "BigIntegerCpp.C60_early_magnitude",
    "BigIntegerCpp.C60_early_bytes_partial",
    "BigIntegerCpp.C60_early_min",
    "BigIntegerCpp.C60_early_int32_exact_iff",
    "BigIntegerCpp.C60_early_int64_exact_iff",
    "BigIntegerCpp.C60_early_bytes_refuted",
    "BigIntegerCpp.C60_refuted"
   ],
   "note": "False for -2^31, and for -1 given as five or more bytes: constructed before the constants they are 0 (proved)."
  },
  {
   "property": "C61",
   "status": "partial",
   "theorems": [
    "BigIntegerCpp.C61_postfix_partial",
    "BigIntegerCpp.C61_never",
    "BigIntegerCpp.C61_refuted",
    "BigIntegerCpp.C61_program"
   ],
   "note": "False for every object: both operators return a reference to the updated object (proved, also at program level). Proved: the update itself."
  },
  {
   "property": "C62",
   "status": "proved",
   "theorems": [
    "BigIntegerCpp.C62_to_double",
    "BigIntegerCpp.C62_to_float",
    "BigIntegerCpp.C62_of_double",
    "BigIntegerCpp.C62_negate_double",
    "BigIntegerCpp.C62_negate_float"
   ],
   "note": "All pairs of objects in the size range, all finite doubles; the order is that of IEEE comparison."
  },
  {
   "property": "C63",
   "status": "partial",
   "theorems": [
    "BigIntegerCpp.C63_sum_partial",
    "BigIntegerCpp.C63_product_partial",
    "BigIntegerCpp.C63_power_partial",
    "BigIntegerCpp.C63_base_partial",
    "BigIntegerCpp.C63_fermat_partial",
    "BigIntegerCpp.C63_rsa_partial",
    "BigIntegerCpp.C63_every_large_odd",
    "BigIntegerCpp.C63_base_exact_iff",
    "BigIntegerCpp.C63_refuted"
   ],
   "note": "Proved for all moduli below 2^992 (31 words). False for every odd modulus from 2^992 on (proved): the reducer used there is wrong, see C18."
  },
  {
   "property": "C64",
   "status": "proved",
   "theorems": [
    "BigIntegerCpp.C64_multiply",
    "BigIntegerCpp.C64_steps",
    "BigIntegerCpp.C64_short",
    "BigIntegerCpp.C64_subquadratic",
    "BigIntegerCpp.C64_storage",
    "BigIntegerCpp.C64_depth"
   ],
   "note": "Bounds on an instrumented copy of the model (Model/Cost.lean) whose outcomes are proved to be those of the model; what counts as a step is said there."
  },
  {
   "property": "C65",
   "status": "proved",
   "theorems": [
    "BigIntegerCpp.C65_divide",
    "BigIntegerCpp.C65_remainder",
    "BigIntegerCpp.C65_guess"
   ],
   "note": "As C64."
  },
  {
   "property": "C66",
   "status": "proved",
   "theorems": [
    "BigIntegerCpp.C66_linear"
   ],
   "note": "As C64."
  },
  {
   "property": "C67",
   "status": "proved",
   "theorems": [
    "BigIntegerCpp.C67_euclid",
    "BigIntegerCpp.C67_power_mod",
    "BigIntegerCpp.C67_square_root",
    "BigIntegerCpp.C67_inverse",
    "BigIntegerCpp.C67_inverse_coprime",
    "BigIntegerCpp.C67_factorial",
    "BigIntegerCpp.C67_fermat",
    "BigIntegerCpp.C67_rsa"
   ],
   "note": "For values whose intermediate results stay below 2^26 words (256 MiB); the programs are in Model/UserPrograms.lean with their C++ text."
  },
  {
   "property": "C68",
   "status": "partial",
   "theorems": [
    "BigIntegerCpp.C68_of_words",
    "BigIntegerCpp.C68_shifts",
    "BigIntegerCpp.C68_bitwise",
    "BigIntegerCpp.C68_queries",
    "BigIntegerCpp.C68_bit_length",
    "BigIntegerCpp.C68_of_bytes",
    "BigIntegerCpp.C68_to_bytes",
    "BigIntegerCpp.C68_parse",
    "BigIntegerCpp.C68_to_string_exact_iff",
    "BigIntegerCpp.C68_to_string_partial",
    "BigIntegerCpp.C68_refuted",
    "BigIntegerCpp.C68_actual_length",
    "BigIntegerCpp.C68_lehmer",
    "BigIntegerCpp.C68_model_arrays",
    "BigIntegerCpp.C68_model_objects",
    "BigIntegerCpp.C68_model_buffers"
   ],
   "note": "False of to_string, which writes outside its buffer exactly on TextMisfires; everything else holds. The memory of AddSub, SquMul and DivRem is C57."
  },
  {
   "property": "C69",
   "status": "proved",
   "theorems": [
    "BigIntegerCpp.C69_to_string",
    "BigIntegerCpp.C69_to_string_quadratic",
    "BigIntegerCpp.C69_to_string_small",
    "BigIntegerCpp.C69_parse",
    "BigIntegerCpp.C69_parse_quadratic"
   ],
   "note": "Counted model Model/CostText.lean, its outcomes proved equal to those of the model of the conversions."
  },
  {
   "property": "C70",
   "status": "proved",
   "theorems": [
    "BigIntegerCpp.C70_pow",
    "BigIntegerCpp.C70_pow_low",
    "BigIntegerCpp.C70_mod_pow_word",
    "BigIntegerCpp.C70_mod_pow_word_exact",
    "BigIntegerCpp.C70_mod_pow"
   ],
   "note": "Counted model Model/CostPow.lean, its outcomes proved equal to those of the model of pow and mod_pow.  For moduli of 32 words and more (Barrett reducer) see C84."
  },
  {
   "property": "C71",
   "status": "partial",
   "theorems": [
    "BigIntegerCpp.C71_objects_stay_canonical",
    "BigIntegerCpp.C71_nothing_refused",
    "BigIntegerCpp.C71_reported",
    "BigIntegerCpp.C71_unchanged_partial",
    "BigIntegerCpp.C71_program_stops",
    "BigIntegerCpp.C71_exact_iff",
    "BigIntegerCpp.C71_assignment",
    "BigIntegerCpp.C71_or_assignment",
    "BigIntegerCpp.C71_div_rem",
    "BigIntegerCpp.C71_caught",
    "BigIntegerCpp.C71_never_fails",
    "BigIntegerCpp.C71_try_parse",
    "BigIntegerCpp.C71_refuted"
   ],
   "note": "False of z = x, x |= y, z = x++, z = x-- and div_rem, exactly in the cases of MayTear (C71_exact_iff); everything else holds."
  },
  {
   "property": "C72",
   "status": "partial",
   "theorems": [
    "BigIntegerCpp.C72_add_subtract",
    "BigIntegerCpp.C72_multiply",
    "BigIntegerCpp.C72_negate",
    "BigIntegerCpp.C72_not",
    "BigIntegerCpp.C72_bitwise",
    "BigIntegerCpp.C72_shift_left",
    "BigIntegerCpp.C72_shift_right_partial",
    "BigIntegerCpp.C72_shift_right_exact_iff",
    "BigIntegerCpp.C72_divide",
    "BigIntegerCpp.C72_remainder",
    "BigIntegerCpp.C72_pow",
    "BigIntegerCpp.C72_byte_count",
    "BigIntegerCpp.C72_word_count",
    "BigIntegerCpp.C72_text_partial"
   ],
   "note": "False of >> exactly on the pairs where >> is wrong (C22), and of to_string where it writes outside its buffer (C30); true otherwise."
  },
  {
   "property": "C73",
   "status": "proved",
   "theorems": [
    "BigIntegerCpp.C73_no_races",
    "BigIntegerCpp.C73_as_if_alone",
    "BigIntegerCpp.C73_ends",
    "BigIntegerCpp.C73_untouched",
    "BigIntegerCpp.C73_schedule_irrelevant",
    "BigIntegerCpp.C73_integers",
    "BigIntegerCpp.C73_condition_needed"
   ],
   "note": "Accesses to members are modelled as indivisible and sequentially consistent (what C++ guarantees in the absence of races); a thread that aborts or runs into undefined behaviour does not stop the others in the model."
  },
  {
   "property": "C74",
   "status": "proved",
   "theorems": [
    "BigIntegerCpp.C74_unary",
    "BigIntegerCpp.C74_sums",
    "BigIntegerCpp.C74_min_max",
    "BigIntegerCpp.C74_division",
    "BigIntegerCpp.C74_bitwise",
    "BigIntegerCpp.C74_shifts",
    "BigIntegerCpp.C74_gcd",
    "BigIntegerCpp.C74_pow",
    "BigIntegerCpp.C74_mod_pow",
    "BigIntegerCpp.C74_zero_divisor",
    "BigIntegerCpp.C74_unknown_unary",
    "BigIntegerCpp.C74_agree_unary",
    "BigIntegerCpp.C74_agree_binary",
    "BigIntegerCpp.C74_div_rem_iff",
    "BigIntegerCpp.C74_shifts_iff",
    "BigIntegerCpp.C74_agree_pow",
    "BigIntegerCpp.C74_mod_pow_iff",
    "BigIntegerCpp.C74_gcd_compared"
   ],
   "note": "The logarithms are not modelled. gcd needs a bound on the rounds larger than the second operand. Under the C++20 reading of left shifts of negative int (strictShift = false), which the byte constructor needs (C25)."
  },
  {
   "property": "C75",
   "status": "proved",
   "theorems": [
    "BigIntegerCpp.C75_operand",
    "BigIntegerCpp.C75_make",
    "BigIntegerCpp.C75_blank",
    "BigIntegerCpp.C75_unary_test",
    "BigIntegerCpp.C75_binary_test",
    "BigIntegerCpp.C75_ternary_test",
    "BigIntegerCpp.C75_div_rem_test",
    "BigIntegerCpp.C75_right_operations_pass",
    "BigIntegerCpp.C75_shift_right_test",
    "BigIntegerCpp.C75_shift_by_32_untested",
    "BigIntegerCpp.C75_wrong_remainder",
    "BigIntegerCpp.C75_random_nonneg",
    "BigIntegerCpp.C75_random_shift_tests_pass",
    "BigIntegerCpp.C75_random_div_rem_tests_pass",
    "BigIntegerCpp.C75_random_mod_pow_tests_pass"
   ],
   "note": "The logarithm operations enter as arbitrary functions. Under the C++20 reading of left shifts of negative int (strictShift = false), which the byte constructor needs (C25). The random generator itself is not modelled: that its bytes are at most 0x7f (Random.cpp, NextBytes) is a hypothesis."
  },
  {
   "property": "C76",
   "status": "partial",
   "theorems": [
    "BigIntegerCpp.C76_construct_compiles",
    "BigIntegerCpp.C76_convert_compiles",
    "BigIntegerCpp.C76_two_objects",
    "BigIntegerCpp.C76_variable_with_number",
    "BigIntegerCpp.C76_const_with_number",
    "BigIntegerCpp.C76_compound_compiles",
    "BigIntegerCpp.C76_compound_number",
    "BigIntegerCpp.C76_shift_compiles",
    "BigIntegerCpp.C76_shift_by_object",
    "BigIntegerCpp.C76_power_compiles",
    "BigIntegerCpp.C76_unary_compiles",
    "BigIntegerCpp.C76_unary_number",
    "BigIntegerCpp.C76_no_truth_value",
    "BigIntegerCpp.C76_never_builtin",
    "BigIntegerCpp.C76_construct_value",
    "BigIntegerCpp.C76_construct_least",
    "BigIntegerCpp.C76_construct_not_finite",
    "BigIntegerCpp.C76_binary_value",
    "BigIntegerCpp.C76_zero_divisor",
    "BigIntegerCpp.C76_compare_value",
    "BigIntegerCpp.C76_compound_value",
    "BigIntegerCpp.C76_count",
    "BigIntegerCpp.C76_shift_value_partial",
    "BigIntegerCpp.C76_shift_exact_iff",
    "BigIntegerCpp.C76_compound_shift_value_partial",
    "BigIntegerCpp.C76_compound_shift_exact_iff",
    "BigIntegerCpp.C76_shift_count_wraps",
    "BigIntegerCpp.C76_power_value",
    "BigIntegerCpp.C76_exponent_wraps",
    "BigIntegerCpp.C76_count_object"
   ],
   "note": "Of the operators: the shifts are exact only for counts that are an int and operands outside C22/C23. Types: the arithmetic types and BigInteger; pointers, strings and vectors as operands are left out. The rules are those of C++17; GCC accepts a few expressions more (DESIGN.md)."
  },
  {
   "property": "C77",
   "status": "partial",
   "theorems": [
    "BigIntegerCpp.C77_binary",
    "BigIntegerCpp.C77_compare",
    "BigIntegerCpp.C77_other_operand",
    "BigIntegerCpp.C77_compare_other",
    "BigIntegerCpp.C77_type_error_iff",
    "BigIntegerCpp.C77_never_gives_way",
    "BigIntegerCpp.C77_equality_refuted",
    "BigIntegerCpp.C77_no_zero_division_error",
    "BigIntegerCpp.C77_divmod_zero",
    "BigIntegerCpp.C77_shift_count",
    "BigIntegerCpp.C77_exponent",
    "BigIntegerCpp.C77_pow3_type_error",
    "BigIntegerCpp.C77_pow3",
    "BigIntegerCpp.C77_new",
    "BigIntegerCpp.C77_always_true",
    "BigIntegerCpp.C77_truth_refuted",
    "BigIntegerCpp.C77_in_place",
    "BigIntegerCpp.C77_sum",
    "BigIntegerCpp.C77_in",
    "BigIntegerCpp.C77_in_raises",
    "BigIntegerCpp.C77_extreme"
   ],
   "note": "Refuted: == raises TypeError for objects of other types, every BigInteger counts as true, sum() returns an int. The rest is proved, for values below 2^(2^31-32) and the shift semantics of GCC, Clang and C++20. The behaviour of CPython and pybind11 is described from their documentation."
  },
  {
   "property": "C78",
   "status": "partial",
   "theorems": [
    "BigIntegerCpp.C78_actual",
    "BigIntegerCpp.C78_symmetric",
    "BigIntegerCpp.C78_commutative",
    "BigIntegerCpp.C78_debug_defined",
    "BigIntegerCpp.C78_release_undefined",
    "BigIntegerCpp.C78_answer",
    "BigIntegerCpp.C78_too_large",
    "BigIntegerCpp.C78_reads_before_array",
    "BigIntegerCpp.C78_refuted"
   ],
   "note": "Symmetry and independence of signs proved for all operands; memory safety for debug builds, and for release builds if one operand is below 2^64; answers positive. Refuted: a release build reads before an array for gcd(-2^129, 3*2^118); an answer can exceed both operands (it is below 2^(32 * words of the larger), proved)."
  },
  {
   "property": "C79",
   "status": "proved",
   "theorems": [
    "BigIntegerCpp.C79_algorithms",
    "BigIntegerCpp.C79_sort",
    "BigIntegerCpp.C79_ordered_set",
    "BigIntegerCpp.C79_hashed_set",
    "BigIntegerCpp.C79_python",
    "BigIntegerCpp.C79_python_big",
    "BigIntegerCpp.C79_python_sorted",
    "BigIntegerCpp.C79_python_set",
    "BigIntegerCpp.C79_hash_never",
    "BigIntegerCpp.C79_python_mixed",
    "BigIntegerCpp.C79_refuted"
   ],
   "note": "Algorithms are trees of questions (comparison, hash) and answers. Python: values below 2^(2^31-32), shift semantics of GCC, Clang and C++20, behaviour of CPython as documented. C79_refuted: with ints mixed in, a Python set can hold equal elements."
  },
  {
   "property": "C80",
   "status": "proved",
   "theorems": [
    "BigIntegerCpp.C80_shift_left",
    "BigIntegerCpp.C80_shift_right",
    "BigIntegerCpp.C80_shift_negative",
    "BigIntegerCpp.C80_bitwise",
    "BigIntegerCpp.C80_negate_not",
    "BigIntegerCpp.C80_compare",
    "BigIntegerCpp.C80_compare_constant",
    "BigIntegerCpp.C80_compare_linear",
    "BigIntegerCpp.C80_queries",
    "BigIntegerCpp.C80_of_bytes",
    "BigIntegerCpp.C80_to_bytes"
   ],
   "note": "Steps are loop iterations and words or bytes filled or copied; each theorem also says that the counting routine has the outcome of the modelled one."
  },
  {
   "property": "C81",
   "status": "proved",
   "theorems": [
    "BigIntegerCpp.C81_gcd_iterations",
    "BigIntegerCpp.C81_gcd_short",
    "BigIntegerCpp.C81_gcd_quadratic",
    "BigIntegerCpp.C81_gcd_cost_settled",
    "BigIntegerCpp.C81_gcd_forever",
    "BigIntegerCpp.C81_gcd_bounded_iff"
   ],
   "note": "Steps are loop iterations and words filled or copied. C81_gcd_quadratic rests on C20_decided: a call that has not ended after 2(log2|x| + log2|y|) + 3 iterations never ends."
  },
  {
   "property": "C82",
   "status": "proved",
   "theorems": [
    "BigIntegerCpp.C82_pow",
    "BigIntegerCpp.C82_pow_word",
    "BigIntegerCpp.C82_mod_pow",
    "BigIntegerCpp.C82_mod_pow_words",
    "BigIntegerCpp.C82_mod_pow_model",
    "BigIntegerCpp.C82_mod_pow_word_model",
    "BigIntegerCpp.C82_gcd_model",
    "BigIntegerCpp.C82_gcd"
   ],
   "note": "A parameter passed by value is a copy only where the callee changes it or it outlives a change of the original. Where the list functions access a vector out of bounds (possible for moduli of 32 words and more, and in gcd without asserts) nothing is said about the memory."
  },
  {
   "property": "C83",
   "status": "proved",
   "theorems": [
    "BigIntegerCpp.C83_mod_pow_safe",
    "BigIntegerCpp.C83_release",
    "BigIntegerCpp.C83_debug_abort",
    "BigIntegerCpp.C83_any_modulus",
    "BigIntegerCpp.C83_safe_iff",
    "BigIntegerCpp.C83_memory"
   ],
   "note": "C83_debug_abort evaluates one call of a debug build (64-word operands) in the kernel: the assertion on the carry of add_self fails."
  },
  {
   "property": "C84",
   "status": "proved",
   "theorems": [
    "BigIntegerCpp.C84_mod_pow",
    "BigIntegerCpp.C84_mod_pow_low"
   ],
   "note": "Steps are loop iterations and words filled or copied; a comparison is counted as if it looked at every word. The bound from above holds also for calls that end in an out-of-bounds access or a failed assertion."
  },
  {
   "property": "C85",
   "status": "proved",
   "theorems": [
    "BigIntegerCpp.C85_fermat",
    "BigIntegerCpp.C85_divisor",
    "BigIntegerCpp.C85_odd_residue",
    "BigIntegerCpp.C85_even",
    "BigIntegerCpp.C85_every_odd_modulus"
   ],
   "note": "Examples use the prime 2^1279 - 1 (Lucas-Lehmer test). A debug build may fail an assertion instead of returning (C83)."
  },
  {
   "property": "C86",
   "status": "partial",
   "theorems": [
    "BigIntegerCpp.C86_add_exact_iff",
    "BigIntegerCpp.C86_add_undefined",
    "BigIntegerCpp.C86_add_wrong",
    "BigIntegerCpp.C86_sub_exact_iff",
    "BigIntegerCpp.C86_sub_undefined",
    "BigIntegerCpp.C86_sub_wrong",
    "BigIntegerCpp.C86_increment",
    "BigIntegerCpp.C86_decrement",
    "BigIntegerCpp.C86_complement",
    "BigIntegerCpp.C86_multiply",
    "BigIntegerCpp.C86_parse_exact_iff",
    "BigIntegerCpp.C86_parse_returns",
    "BigIntegerCpp.C86_parse_below",
    "BigIntegerCpp.C86_parse_two_64",
    "BigIntegerCpp.C86_bit_length",
    "BigIntegerCpp.C86_to_long",
    "BigIntegerCpp.C86_to_ulong",
    "BigIntegerCpp.C86_to_double",
    "BigIntegerCpp.C86_of_double",
    "BigIntegerCpp.C86_of_infinity",
    "BigIntegerCpp.C86_of_nan",
    "BigIntegerCpp.C86_pow",
    "BigIntegerCpp.C86_pow_exceptions",
    "BigIntegerCpp.C86_mod_pow",
    "BigIntegerCpp.C86_mod_pow_large",
    "BigIntegerCpp.C86_mod_pow_unreduced",
    "BigIntegerCpp.C86_mod_pow_any_base",
    "BigIntegerCpp.C86_gcd",
    "BigIntegerCpp.C86_gcd_same",
    "BigIntegerCpp.C86_gcd_below_64_bits"
   ],
   "note": "The code violates the property; the theorems say exactly on which arguments it holds and what happens on the others. For Python see C93. Not covered: mod_pow where the power reaches a modulus of 2^992 or more is shown undefined, not which error comes first."
  },
  {
   "property": "C87",
   "status": "proved",
   "theorems": [
    "BigIntegerCpp.C87_generator_unchanged",
    "BigIntegerCpp.C87_same_array",
    "BigIntegerCpp.C87_arrays",
    "BigIntegerCpp.C87_operands",
    "BigIntegerCpp.C87_gcd_test",
    "BigIntegerCpp.C87_div_rem_tests",
    "BigIntegerCpp.C87_mod_pow_tests",
    "BigIntegerCpp.C87_two_large"
   ],
   "note": "For the shift semantics of GCC, Clang and C++20. C87_div_rem_tests and C87_mod_pow_tests assume that the arrays are not read as zero (they may consist of blanks), C87_mod_pow_tests also that blanks do not lengthen a modulus to 2^992. That the loop of GetNonZeroRandomByteArray ends is a hypothesis on the engine."
  },
  {
   "property": "C88",
   "status": "partial",
   "theorems": [
    "BigIntegerCpp.C88_machine_partial",
    "BigIntegerCpp.C88_exact_iff",
    "BigIntegerCpp.C88_instruction_exact_iff",
    "BigIntegerCpp.C88_every_program",
    "BigIntegerCpp.C88_plain",
    "BigIntegerCpp.C88_bytes",
    "BigIntegerCpp.C88_undefined",
    "BigIntegerCpp.C88_builds_agree",
    "BigIntegerCpp.C88_doubling",
    "BigIntegerCpp.C88_refuted"
   ],
   "note": "The code violates the property; C88_exact_iff says exactly for which runs it holds, C88_every_program what happens in all of them. The machine is user code and not in the repository; conditions are pushed as 0 and 1. For the shift semantics of GCC, Clang and C++20."
  },
  {
   "property": "C89",
   "status": "partial",
   "theorems": [
    "BigIntegerCpp.C89_chain_partial",
    "BigIntegerCpp.C89_exact_iff",
    "BigIntegerCpp.C89_undefined_iff",
    "BigIntegerCpp.C89_result",
    "BigIntegerCpp.C89_identity_iff",
    "BigIntegerCpp.C89_order_irrelevant",
    "BigIntegerCpp.C89_same_forms",
    "BigIntegerCpp.C89_monotone",
    "BigIntegerCpp.C89_double",
    "BigIntegerCpp.C89_builds_agree",
    "BigIntegerCpp.C89_refuted"
   ],
   "note": "The code violates the property (C30, C34); C89_exact_iff says exactly for which chains and values it holds, C89_undefined_iff what happens otherwise. operator float is not among the forms: C49 describes its rounding. For the shift semantics of GCC, Clang and C++20."
  },
  {
   "property": "C90",
   "status": "partial",
   "theorems": [
    "BigIntegerCpp.C90_buffers_partial",
    "BigIntegerCpp.C90_step_exact_iff",
    "BigIntegerCpp.C90_returns",
    "BigIntegerCpp.C90_overwrite",
    "BigIntegerCpp.C90_refresh_wrong",
    "BigIntegerCpp.C90_reduce_fast",
    "BigIntegerCpp.C90_repeated_squaring",
    "BigIntegerCpp.C90_new",
    "BigIntegerCpp.C90_refuted",
    "BigIntegerCpp.C90_reduce_self"
   ],
   "note": "The code violates the property; C90_step_exact_iff says exactly for which calls it holds, C90_overwrite, C90_refresh_wrong and C90_reduce_fast what the others do. A buffer may be reduced by itself: C90_reduce_self shows in memory that dividing the array by itself in place gives what the model of the calls on values says."
  },
  {
   "property": "C91",
   "status": "partial",
   "theorems": [
    "BigIntegerCpp.C91_defaults",
    "BigIntegerCpp.C91_to_int",
    "BigIntegerCpp.C91_actual",
    "BigIntegerCpp.C91_bytes_exist",
    "BigIntegerCpp.C91_exact_iff",
    "BigIntegerCpp.C91_of_int_partial",
    "BigIntegerCpp.C91_one_byte",
    "BigIntegerCpp.C91_refuted"
   ],
   "note": "to_py_int is right in all four forms. to_biginteger with is_bigendian = true passes the byte order to CPython but not to the constructors, so it is right exactly for the numbers whose bytes read the same in both directions; no caller sets the parameter. Shift semantics of GCC, Clang and C++20 as in C25."
  },
  {
   "property": "C92",
   "status": "proved",
   "theorems": [
    "BigIntegerCpp.C92_parts",
    "BigIntegerCpp.C92_parts_not_finite",
    "BigIntegerCpp.C92_round_trip",
    "BigIntegerCpp.C92_from_parts",
    "BigIntegerCpp.C92_from_parts_infinity",
    "BigIntegerCpp.C92_undefined_iff",
    "BigIntegerCpp.C92_truncates_unique",
    "BigIntegerCpp.C92_leading_zeros",
    "BigIntegerCpp.C92_complement",
    "BigIntegerCpp.C92_mix_injective",
    "BigIntegerCpp.C92_hash_one_word"
   ],
   "note": "For an infinity or a NaN the exponent is -1 and fFinite is false."
  },
  {
   "property": "C93",
   "status": "partial",
   "theorems": [
    "BigIntegerCpp.C93_binary_partial",
    "BigIntegerCpp.C93_binary_wrong",
    "BigIntegerCpp.C93_binary_undefined",
    "BigIntegerCpp.C93_binary_exact_iff",
    "BigIntegerCpp.C93_refuted",
    "BigIntegerCpp.C93_pow",
    "BigIntegerCpp.C93_pow_throws",
    "BigIntegerCpp.C93_pow_min",
    "BigIntegerCpp.C93_pow_mod",
    "BigIntegerCpp.C93_pow_mod_large",
    "BigIntegerCpp.C93_bit_length",
    "BigIntegerCpp.C93_invert"
   ],
   "note": "The code violates the property; C93_binary_exact_iff says exactly for which operands it holds, C93_binary_wrong and C93_binary_undefined what happens for the others."
  },
  {
   "property": "C94",
   "status": "proved",
   "theorems": [
    "BigIntegerCpp.C94_of_float",
    "BigIntegerCpp.C94_of_float_not_finite",
    "BigIntegerCpp.C94_float_round_trip",
    "BigIntegerCpp.C94_through_float",
    "BigIntegerCpp.C94_through_float_throws",
    "BigIntegerCpp.C94_exact_iff",
    "BigIntegerCpp.C94_minus_zero"
   ],
   "note": "The built-in conversions between float and double are those of IEEE-754 in the default rounding mode (Model/Float.lean, Model/FloatBack.lean)."
  },
  {
   "property": "C95",
   "status": "partial",
   "theorems": [
    "BigIntegerCpp.C95_value",
    "BigIntegerCpp.C95_drop_in_partial",
    "BigIntegerCpp.C95_no_division",
    "BigIntegerCpp.C95_ints",
    "BigIntegerCpp.C95_operator_exact_iff",
    "BigIntegerCpp.C95_order_matters",
    "BigIntegerCpp.C95_refuted"
   ],
   "note": "The code violates the property for divisions with a remainder and operands of opposite signs (BigInteger truncates as .NET does, int rounds down); C95_value says what every formula gives."
  },
  {
   "property": "C96",
   "status": "partial",
   "theorems": [
    "BigIntegerCpp.C96_program_partial",
    "BigIntegerCpp.C96_actual",
    "BigIntegerCpp.C96_halving_never_ends",
    "BigIntegerCpp.C96_halving_ints",
    "BigIntegerCpp.C96_digit_count",
    "BigIntegerCpp.C96_euclid",
    "BigIntegerCpp.C96_power",
    "BigIntegerCpp.C96_power_by_truth",
    "BigIntegerCpp.C96_sqrt",
    "BigIntegerCpp.C96_more_steps",
    "BigIntegerCpp.C96_one_outcome",
    "BigIntegerCpp.C96_outcome_partial",
    "BigIntegerCpp.C96_actual_outcome",
    "BigIntegerCpp.C96_no_crash"
   ],
   "note": "The code violates the property for truth values (there is no __bool__) and for the divisions of C95; C96_program_partial covers every other run, endless ones included, and C96_actual says what every program does."
  }
 ]
}