{"id": "C01", "title": "Integer constructors are exact", "statement": "BigInteger(int32_t), BigInteger(uint32_t), BigInteger(int64_t) and BigInteger(uint64_t) build a value equal to the argument, with no assertion failure and no undefined behaviour.", "quantifier": "every value of each of the four argument types", "why_tests_cant": "2^64 arguments; the interesting ones are isolated boundary points (INT_MIN, INT64_MIN, 2^31, 2^32).", "anchors": ["src/BigInteger.cpp:BigInteger::BigInteger(int32_t|uint32_t|int64_t|uint64_t)"]}
{"id": "C02", "title": "One representation per integer", "statement": "Every value produced by the library's constructors and operators is in the library's canonical form, and two canonical values denoting the same integer are indistinguishable (same internal sign, same words).", "quantifier": "every canonical value and every operation result", "why_tests_cant": "Canonicity is an invariant of all reachable values, whichever chain of operations produced them.", "anchors": ["src/BigInteger.cpp:assert_valid", "src/BigInteger.cpp:BigInteger(uint_array,bool)", "src/BigInteger.cpp:BigInteger(uint_array)", "src/BigInteger.cpp:BigInteger(byte_array,bool,bool)"]}
{"id": "C03", "title": "Comparison is the integer order", "statement": "compare_to returns a negative, zero or positive number exactly when the first integer is less than, equal to or greater than the second; <, <=, >, >=, == and != agree with it.", "quantifier": "every pair of values of any size and sign", "why_tests_cant": "Unbounded operand sizes; order laws (totality, transitivity, antisymmetry) quantify over triples.", "anchors": ["src/BigInteger.cpp:compare_to", "src/BigInteger.cpp:get_diff_length", "src/BigInteger.cpp:equals", "include/public/bigintegercpp/BigInteger.h:operator<..operator!="]}
{"id": "C04", "title": "Equal values hash equally", "statement": "If a == b then a.get_hash_code() == b.get_hash_code(), however a and b were computed; the Python __hash__ agrees as well.", "quantifier": "every pair of equal values of any size", "why_tests_cant": "Two equal values can be reached along different computation paths; only an invariant covers all of them.", "anchors": ["src/BigInteger.cpp:get_hash_code", "include/NumericsHelpers.h:combine_hash", "bindings/python/python-bindings.cpp:__hash__"]}
{"id": "C05", "title": "Addition is exact", "statement": "a + b (operator+, operator+=, BigInteger::add) equals the mathematical sum.", "quantifier": "every pair of values of any size and sign", "why_tests_cant": "Carry chains of every length, all sign and size combinations.", "anchors": ["src/BigInteger.cpp:operator+=", "src/BigInteger.cpp:add", "src/BigIntegerCalculator/AddSub.cpp:add"]}
{"id": "C06", "title": "Subtraction is exact", "statement": "a - b (operator-, operator-=, BigInteger::subtract) equals the mathematical difference.", "quantifier": "every pair of values of any size and sign", "why_tests_cant": "Borrow chains of every length, all sign and size combinations.", "anchors": ["src/BigInteger.cpp:operator-=", "src/BigInteger.cpp:subtract", "src/BigIntegerCalculator/AddSub.cpp:subtract"]}
{"id": "C07", "title": "Negation, absolute value and sign", "statement": "-a and negate(a) denote minus the value, +a denotes the value, abs(a) its absolute value, and sign() is -1, 0 or 1 according to the value.", "quantifier": "every value", "why_tests_cant": "Holds for all sizes including the special encoding of -2^31.", "anchors": ["src/BigInteger.cpp:operator-()", "src/BigInteger.cpp:operator+()", "src/BigInteger.cpp:negate", "src/BigInteger.cpp:abs", "src/BigInteger.cpp:sign"]}
{"id": "C08", "title": "Increment and decrement", "statement": "++a and --a (prefix and postfix forms) leave a equal to its old value plus or minus one, and return the updated value.", "quantifier": "every value", "why_tests_cant": "Carries can ripple through any number of words.", "anchors": ["src/BigInteger.cpp:operator++", "src/BigInteger.cpp:operator--"]}
{"id": "C09", "title": "Multiplication is exact at every size", "statement": "a * b (operator*, operator*=, BigInteger::multiply) equals the mathematical product, both below and above the Karatsuba thresholds, and also when both operands have the same magnitude (squaring).", "quantifier": "every pair of values of any size and sign", "why_tests_cant": "The recursive Karatsuba path has unbounded depth and intermediate carries depend on every word.", "anchors": ["src/BigInteger.cpp:operator*=", "src/BigIntegerCalculator/SquMul.cpp:multiply", "src/BigIntegerCalculator/SquMul.cpp:square", "src/BigIntegerCalculator/SquMul.cpp:subtract_core", "src/BigIntegerCalculator/AddSub.cpp:add_self"]}
{"id": "C10", "title": "Division truncates toward zero", "statement": "a / b (operator/, operator/=, BigInteger::divide) equals the quotient truncated toward zero for every b != 0.", "quantifier": "every pair of values of any size and sign with non-zero divisor", "why_tests_cant": "The quotient-digit correction branch fires with probability about 2^-32 on random data.", "anchors": ["src/BigInteger.cpp:operator/=", "src/BigIntegerCalculator/DivRem.cpp:divide", "src/BigIntegerCalculator/DivRem.cpp:divide_guess_too_big", "src/BigIntegerCalculator/DivRem.cpp:subtract_divisor", "src/BigIntegerCalculator/DivRem.cpp:add_divisor"]}
{"id": "C11", "title": "Remainder has the sign of the dividend", "statement": "a % b (operator%, operator%=, BigInteger::remainder) equals a - b*trunc(a/b) for every b != 0; hence (a/b)*b + a%b == a and |a%b| < |b|.", "quantifier": "every pair of values of any size and sign with non-zero divisor", "why_tests_cant": "Same rare digit-correction branch; identity relates two separate code paths.", "anchors": ["src/BigInteger.cpp:operator%=", "src/BigIntegerCalculator/DivRem.cpp:remainder", "src/BigIntegerCalculator/DivRem.cpp:divide"]}
{"id": "C12", "title": "Division by zero is always reported", "statement": "a / 0, a % 0 and div_rem(a, 0, r) throw DivideByZero, and never return or invoke undefined behaviour.", "quantifier": "every dividend of any size and sign", "why_tests_cant": "Trivial and non-trivial dividends reach the check along different paths.", "anchors": ["src/BigInteger.cpp:operator/=", "src/BigInteger.cpp:operator%=", "src/BigInteger.cpp:div_rem", "include/exceptions.h:DivideByZero"]}
{"id": "C13", "title": "div_rem agrees with / and %", "statement": "div_rem(a, b, r) returns a / b and stores a % b in r, for every b != 0.", "quantifier": "every pair of values with non-zero divisor", "why_tests_cant": "Requires agreement of three code paths over all sizes and signs.", "anchors": ["src/BigInteger.cpp:div_rem"]}
{"id": "C14", "title": "div_rem with an aliased out-parameter", "statement": "div_rem(a, b, a) and div_rem(a, b, b), where the remainder overwrites an input, still return a / b (as the C# original does, whose inputs are passed by value).", "quantifier": "every pair of values with non-zero divisor", "why_tests_cant": "Aliasing patterns are call-site histories rather than inputs.", "anchors": ["src/BigInteger.cpp:div_rem"]}
{"id": "C15", "title": "Power is exact", "statement": "pow(v, e) equals v^e for every e >= 0, throws out_of_range for e < 0, and throws overflow_error rather than computing a wrong result when the result would be too long to index.", "quantifier": "every value and every int exponent", "why_tests_cant": "Unbounded result sizes; buffer reuse in square-and-multiply must stay in bounds at every step.", "anchors": ["src/BigInteger.cpp:pow", "src/BigIntegerCalculator/PowMod.cpp:pow", "src/BigIntegerCalculator/PowMod.cpp:pow_bound", "src/BigIntegerCalculator/PowMod.cpp:pow_core", "src/BigIntegerCalculator/BitsBuffer.cpp"]}
{"id": "C16", "title": "Modular power is exact", "statement": "mod_pow(v, e, m) equals the remainder (with the sign of v^e) of v^e divided by m, for every e >= 0 and m != 0.", "quantifier": "every value, non-negative exponent and non-zero modulus of any size", "why_tests_cant": "Three unbounded operands and six code paths (small/large each, plus Barrett reduction).", "anchors": ["src/BigInteger.cpp:mod_pow", "src/BigIntegerCalculator/PowMod.cpp", "src/BigIntegerCalculator/BitsBuffer.cpp", "src/BigIntegerCalculator/FastReducer.cpp"]}
{"id": "C17", "title": "Modular power rejects bad arguments", "statement": "mod_pow(v, e, m) throws out_of_range when e < 0 and DivideByZero when e >= 0 and m = 0, for every v and e.", "quantifier": "every value, exponent and modulus", "why_tests_cant": "The zero-modulus check sits on some of the paths only.", "anchors": ["src/BigInteger.cpp:mod_pow", "src/BigIntegerCalculator/PowMod.cpp:pow_core"]}
{"id": "C18", "title": "Modular power with large moduli", "statement": "mod_pow with a modulus of 32 words or more (the Barrett-reduction path) returns a value smaller in magnitude than the modulus and congruent to v^e, without touching memory outside its buffers.", "quantifier": "every value, exponent and modulus of at least 992 bits", "why_tests_cant": "Buffer contents persist between loop iterations.", "anchors": ["src/BigIntegerCalculator/FastReducer.cpp", "src/BigIntegerCalculator/PowMod.cpp:pow_core(FastReducer)", "src/BigIntegerCalculator/BitsBuffer.cpp:Reduce"]}
{"id": "C19", "title": "Greatest common divisor is exact", "statement": "greatest_common_divisor(a, b) equals gcd(|a|, |b|) (0 when both are 0).", "quantifier": "every pair of values of any size and sign", "why_tests_cant": "Lehmer steps act on unbounded operands.", "anchors": ["src/BigInteger.cpp:greatest_common_divisor", "src/BigIntegerCalculator/GcdInv.cpp"]}
{"id": "C20", "title": "Greatest common divisor terminates", "statement": "greatest_common_divisor(a, b) returns after finitely many steps, without assertion failure, for all a and b.", "quantifier": "every pair of values of any size and sign", "why_tests_cant": "Non-termination cannot be established by running a test.", "anchors": ["src/BigIntegerCalculator/GcdInv.cpp:gcd", "src/BigIntegerCalculator/GcdInv.cpp:lehmer_core", "src/BigIntegerCalculator/BitsBuffer.cpp:Refresh"]}
{"id": "C21", "title": "Left shift multiplies by a power of two", "statement": "a << n equals a * 2^n for every n >= 0.", "quantifier": "every value and every non-negative shift", "why_tests_cant": "Word and bit offsets combine with operand length.", "anchors": ["src/BigInteger.cpp:operator<<=", "src/BigInteger.cpp:get_parts_for_bit_manipulation"]}
{"id": "C22", "title": "Right shift is floor division by a power of two", "statement": "a >> n equals floor(a / 2^n) for every n >= 0, negative a included.", "quantifier": "every value and every non-negative shift", "why_tests_cant": "Failures sit at isolated word patterns (all-ones top words) and word-aligned shifts.", "anchors": ["src/BigInteger.cpp:operator>>=", "include/NumericsHelpers.h:dangerous_make_twos_complement"]}
{"id": "C23", "title": "Negative shift counts shift the other way", "statement": "a << n equals a >> -n and a >> n equals a << -n for negative n, including n = INT_MIN whose negation does not exist.", "quantifier": "every value and every negative shift", "why_tests_cant": "2^31 shift counts times unbounded values.", "anchors": ["src/BigInteger.cpp:operator<<=", "src/BigInteger.cpp:operator>>="]}
{"id": "C24", "title": "AND, OR, XOR and NOT are two's-complement bitwise operations", "statement": "Every bit of a & b, a | b, a ^ b and ~a (in infinite two's complement) is the boolean combination of the operands' bits.", "quantifier": "every pair of values of any size and sign, every bit position", "why_tests_cant": "Sign extension interacts with every relative operand length.", "anchors": ["src/BigInteger.cpp:operator&=", "src/BigInteger.cpp:operator|=", "src/BigInteger.cpp:operator^=", "src/BigInteger.cpp:operator~", "src/BigInteger.cpp:to_uint32_array", "src/BigInteger.cpp:BigInteger(uint_array)"]}
{"id": "C25", "title": "Byte-array constructor reads two's complement", "statement": "BigInteger(bytes, isUnsigned, isBigEndian) denotes the unsigned or two's-complement value of the bytes in the given order, for arrays of any length including empty and over-long (sign-padded) ones.", "quantifier": "every byte array, both signedness flags, both byte orders", "why_tests_cant": "Unbounded lengths, alignment modulo four, redundant leading bytes.", "anchors": ["src/BigInteger.cpp:BigInteger(byte_array,bool,bool)"]}
{"id": "C26", "title": "Signed byte round trip", "statement": "BigInteger(a.to_byte_array(false, be), false, be) == a.", "quantifier": "every value, both byte orders", "why_tests_cant": "Round trip over all sizes and sign patterns.", "anchors": ["src/BigInteger.cpp:to_byte_array", "src/BigInteger.cpp:BigInteger(byte_array,bool,bool)"]}
{"id": "C27", "title": "Unsigned byte round trip", "statement": "For a >= 0, BigInteger(a.to_byte_array(true, be), true, be) == a; for a < 0 to_byte_array(true, be) throws.", "quantifier": "every value, both byte orders", "why_tests_cant": "Round trip over all sizes.", "anchors": ["src/BigInteger.cpp:to_byte_array"]}
{"id": "C28", "title": "Serialised form is minimal and its length is predicted", "statement": "a.to_byte_array has the least length able to hold the value in the chosen signedness, get_byte_count returns exactly that length, and the big-endian form is the reverse of the little-endian form.", "quantifier": "every value, both signedness flags", "why_tests_cant": "Minimality compares against all alternative encodings.", "anchors": ["src/BigInteger.cpp:to_byte_array", "src/BigInteger.cpp:get_byte_count"]}
{"id": "C29", "title": "The explicit-mode to_byte_array overload is safe with its default arguments", "statement": "to_byte_array(mode) with the default bytesWritten argument returns the same bytes as to_byte_array() and does not crash.", "quantifier": "every value, both modes", "why_tests_cant": "The failure depends on one value and on default arguments that no test passes.", "anchors": ["src/BigInteger.cpp:to_byte_array(GetBytesMode,bool,bool,int*)", "include/public/bigintegercpp/BigInteger.h"]}
{"id": "C30", "title": "Decimal text is exact", "statement": "to_string returns the decimal representation of the value, without leading zeros, and never writes outside its buffer.", "quantifier": "every value", "why_tests_cant": "The out-of-bounds condition depends on the exact number of decimal digits.", "anchors": ["src/BigInteger.cpp:to_string"]}
{"id": "C31", "title": "Parsing is exact", "statement": "parse(s) denotes the value of the longest run of decimal digits after an optional sign (zero when there is none).", "quantifier": "every string", "why_tests_cant": "Unbounded strings and digit counts.", "anchors": ["src/BigInteger.cpp:parse"]}
{"id": "C32", "title": "Text round trip", "statement": "parse(a.to_string()) == a.", "quantifier": "every value", "why_tests_cant": "Unbounded values.", "anchors": ["src/BigInteger.cpp:parse", "src/BigInteger.cpp:to_string"]}
{"id": "C33", "title": "try_parse reports success", "statement": "try_parse(s, r) returns true exactly when s is well formed, and stores parse(s).", "quantifier": "every string", "why_tests_cant": "Quantifies over all strings.", "anchors": ["src/BigInteger.cpp:try_parse"]}
{"id": "C34", "title": "Narrowing conversions are exact or throw", "statement": "Conversion to int, unsigned int, long and unsigned long returns the value when it is in range and throws overflow_error otherwise.", "quantifier": "every value", "why_tests_cant": "Boundary points of four ranges (notably the minimum values) against unbounded inputs.", "anchors": ["src/BigInteger.cpp:operator int", "src/BigInteger.cpp:operator unsigned int", "src/BigInteger.cpp:operator long", "src/BigInteger.cpp:operator unsigned long"]}
{"id": "C35", "title": "Conversion to double truncates", "statement": "Conversion to double yields the value truncated toward zero to 53 significant bits, and an infinity of the right sign exactly when the magnitude is at least 2^1024.", "quantifier": "every value", "why_tests_cant": "Unbounded values; exactness depends on every word of the operand.", "anchors": ["src/BigInteger.cpp:operator double", "include/NumericsHelpers.h:get_double_from_parts", "include/NumericsHelpers.h:cbit_high_zero"]}
{"id": "C36", "title": "Construction from double truncates", "statement": "BigInteger(d) equals d truncated toward zero for every finite d and throws overflow_error for infinities and NaNs; converting an integral d back yields d.", "quantifier": "every one of the 2^64 double bit patterns", "why_tests_cant": "2^64 inputs across six exponent regimes.", "anchors": ["src/BigInteger.cpp:BigInteger(double)", "include/NumericsHelpers.h:get_double_parts", "src/BigInteger.cpp:double_IsFinite"]}
{"id": "C37", "title": "Bit length", "statement": "get_bit_length is the least n such that the value fits in n+1 bits of two's complement.", "quantifier": "every value", "why_tests_cant": "Negative powers of two are special at every size.", "anchors": ["src/BigInteger.cpp:get_bit_length", "src/BigInteger.cpp:leading_zeros_count"]}
{"id": "C38", "title": "Predicates", "statement": "is_zero, is_one, is_even and is_power_of_two answer exactly the question in their name.", "quantifier": "every value", "why_tests_cant": "Unbounded values.", "anchors": ["src/BigInteger.cpp:is_zero", "src/BigInteger.cpp:is_one", "src/BigInteger.cpp:is_even", "src/BigInteger.cpp:is_power_of_two"]}
{"id": "C39", "title": "Ring and order laws hold observably", "statement": "Sums and products computed through the API are commutative, associative and distributive under ==, and + and * by positive values are monotone for <=.", "quantifier": "every triple of values", "why_tests_cant": "Laws quantify over triples of unbounded values.", "anchors": ["src/BigInteger.cpp:operator+=", "src/BigInteger.cpp:operator*=", "src/BigInteger.cpp:operator-=", "src/BigInteger.cpp:compare_to"]}
{"id": "C40", "title": "Programs over variables behave like integers", "statement": "Any sequence of in-place API operations on a set of variables, with any aliasing of operands (x += x, x /= x), leaves each variable equal to what integer arithmetic gives; an operation that throws leaves all variables unchanged.", "quantifier": "every finite program, every initial store, every aliasing pattern", "why_tests_cant": "Histories and aliasing patterns are unbounded.", "anchors": ["src/BigInteger.cpp:operator+=", "src/BigInteger.cpp:operator-=", "src/BigInteger.cpp:operator*=", "src/BigInteger.cpp:operator/=", "src/BigInteger.cpp:operator%=", "src/BigInteger.cpp:operator<<=", "src/BigInteger.cpp:operator^="]}
{"id": "C41", "title": "Debug and release builds agree", "statement": "On the proved domains no assert fires, so a build with NDEBUG and one without return the same results.", "quantifier": "every operation and operand in the proved domains", "why_tests_cant": "Two builds times all inputs.", "anchors": ["src/**/*.cpp:assert", "src/BigInteger.cpp:assert_valid"]}
{"id": "C42", "title": "Two's-complement word export", "statement": "to_uint32_array returns the shortest non-empty two's-complement little-endian word list denoting the value (the empty list for zero).", "quantifier": "every value", "why_tests_cant": "Unbounded values, sign-extension boundary words.", "anchors": ["src/BigInteger.cpp:to_uint32_array"]}
{"id": "C43", "title": "Magnitude constructor", "statement": "BigInteger(words, negative) denotes plus or minus the little-endian value of the words, tolerating redundant zero words, and is canonical.", "quantifier": "every word list and sign flag", "why_tests_cant": "Unbounded lists.", "anchors": ["src/BigInteger.cpp:BigInteger(uint_array,bool)"]}
{"id": "C44", "title": "Python integers convert exactly", "statement": "Converting a Python int to BigInteger preserves the value, and converting back with int() yields the original.", "quantifier": "every Python integer", "why_tests_cant": "Unbounded integers, every byte-length boundary.", "anchors": ["bindings/python/python-bindings.cpp:to_biginteger", "bindings/python/python-bindings.cpp:to_py_int"]}
{"id": "C45", "title": "Python operators", "statement": "Mixed BigInteger/int operators of the Python binding (+, -, *, %, divmod, comparisons, shifts and the reflected forms) return the value of the corresponding BigInteger operation on the converted operands in the right order.", "quantifier": "every BigInteger and Python int", "why_tests_cant": "Unbounded operands; operand order is invisible on symmetric samples.", "anchors": ["bindings/python/python-bindings.cpp"]}
{"id": "C46", "title": "Logarithm special cases and decomposition", "statement": "log(v, b) is NaN for negative v, for b = 1, for b = 0 or +infinity unless v is one (then 0 for infinity); otherwise, in exact real arithmetic, the formula used differs from the true logarithm by less than 2^-62/|ln b|.", "quantifier": "every value and every base", "why_tests_cant": "Real-valued accuracy over unbounded values.", "anchors": ["src/BigInteger.cpp:log", "src/BigInteger.cpp:log10", "include/NumericsHelpers.h:csharp_log_wrapper"]}
{"id": "C47", "title": "Python: equal objects have equal hashes", "statement": "If a BigInteger and a Python int compare equal with ==, hash() returns the same number for both, as Python requires of keys in dicts and sets.", "quantifier": "every BigInteger and every Python int equal to it", "why_tests_cant": "A law over all values of two types; single lookups only sample it.", "anchors": ["bindings/python/python-bindings.cpp:__hash__", "bindings/python/python-bindings.cpp:__eq__"]}
{"id": "C48", "title": "Classification of doubles", "statement": "The library's tests is-finite, is-infinity, is-NaN used when converting a double agree with IEEE-754, and every double is in exactly one of the three classes.", "quantifier": "all 2^64 bit patterns of a double", "why_tests_cant": "2^64 patterns cannot be enumerated.", "anchors": ["include/public/bigintegercpp/BigInteger.h:double_IsFinite, double_IsInfinity, double_IsNaN", "src/BigInteger.cpp:BigInteger(double)"]}
{"id": "C49", "title": "Conversion to float gives the nearest float", "statement": "operator float returns the float nearest to the value (ties to even), and an infinity of the right sign when the magnitude is at least 2^128 - 2^103.", "quantifier": "every value", "why_tests_cant": "The rounding error occurs only for values just above a midpoint, beyond the 53rd bit; a sample will not meet them.", "anchors": ["src/BigInteger.cpp:operator float", "src/BigInteger.cpp:operator double"]}
{"id": "C50", "title": "Word-level add and subtract", "statement": "The public member functions add and subtract that take two word arrays with their signs return the sum and the difference of the two signed values.", "quantifier": "the words and signs of every pair of values", "why_tests_cant": "All callers in the library pass operands of equal sign, so its tests never exercise the other half of the domain.", "anchors": ["src/BigInteger.cpp:add(const uint_array&, int, const uint_array&, int)", "src/BigInteger.cpp:subtract(const uint_array&, int, const uint_array&, int)"]}
{"id": "C51", "title": "Word-level greatest common divisor", "statement": "The public greatest_common_divisor of two word arrays returns the greatest common divisor of their values, and returns at all.", "quantifier": "every pair of word arrays without leading zeros, in either order", "why_tests_cant": "The loop's behaviour depends on the leading bits of both operands at every iteration.", "anchors": ["src/BigInteger.cpp:greatest_common_divisor(const uint_array&, const uint_array&)"]}
{"id": "C52", "title": "Python: construction from buffers, bytes()", "statement": "BigInteger(b) for an object b with the buffer protocol (unsigned bytes, one dimension) is the little-endian two's-complement value of bytes(b), other buffers raise an exception; BigInteger(bytes(a)) == a; to_array gives the bytes in the requested form or raises for a negative value in unsigned form.", "quantifier": "every buffer (any memory, start, size and stride) and every value", "why_tests_cant": "Memory layouts and values are unbounded; strided views are not covered by any example.", "anchors": ["bindings/python/python-bindings.cpp:py::init(py::buffer)", "bindings/python/python-bindings.cpp:__bytes__", "bindings/python/python-bindings.cpp:to_array"]}
{"id": "C53", "title": "Python: unary operators and conversions", "statement": "-a, +a, abs(a), ~a, copy.deepcopy(a), int(a), operator.index(a), str(a) and the constants zero, one, minus_one agree with Python's own integers.", "quantifier": "every value", "why_tests_cant": "Agreement of two integer types over an unbounded domain.", "anchors": ["bindings/python/python-bindings.cpp:__neg__, __pos__, __abs__, __invert__, __deepcopy__", "bindings/python/python-bindings.cpp:__int__, __index__, __str__", "bindings/python/python-bindings.cpp:zero, one, minus_one"]}
{"id": "C54", "title": "Representation accessors and constants", "statement": "sign_internal() and get_bits() return the value and no words for magnitudes below 2^31, otherwise the sign and the words of the magnitude without leading zeros; BigInteger(sign_internal(), get_bits()) rebuilds the object; two values are equal exactly if both agree; zero(), one(), minus_one() and the default constructor are 0, 1, -1, 0; add, subtract, multiply, divide and remainder called by name do what the operators do.", "quantifier": "every value", "why_tests_cant": "Unbounded domain; the boundary between the two representations has to hold for every way of reaching a value.", "anchors": ["include/public/bigintegercpp/BigInteger.h:sign_internal", "src/BigInteger.cpp:get_bits", "src/BigInteger.cpp:zero, one, minus_one", "src/BigInteger.cpp:Compare"]}
{"id": "C55", "title": "Python: predicates, bit length, sign and logarithms", "statement": "is_even, is_power_of_two, sign agree with the integer; get_bit_Length() is int.bit_length of the value if it is not negative and of its complement otherwise; BigInteger.log(v), log(v, base), log10(v) accept an int or a BigInteger, give the same result for both and are the logarithm up to rounding, NaN for negative values.", "quantifier": "every value, given as int or as BigInteger, and every base", "why_tests_cant": "Unbounded domain; the difference from int.bit_length shows only on negatives of powers of two.", "anchors": ["bindings/python/python-bindings.cpp:is_even, is_power_of_two, sign, get_bit_Length", "bindings/python/python-bindings.cpp:log, log10"]}
{"id": "C56", "title": "Laws of integers are laws of the library", "statement": "If two expressions over + - * & | ^ ~ unary minus, unary plus, abs have the same value for all integers, then they give == objects for all BigIntegers; an expression that also uses / % << >> pow gives the object of its integer value.", "quantifier": "all pairs of expressions, all values of the variables", "why_tests_cant": "It ranges over all laws and all values: associativity, distributivity, De Morgan's laws and every other one.", "anchors": ["src/BigInteger.cpp:operator+, operator-, operator*, operator&, operator|, operator^, operator~, abs, negate", "src/BigInteger.cpp:operator/, operator%, operator<<, operator>>, pow"]}
{"id": "C57", "title": "Word-array arithmetic stays inside its arrays", "statement": "add, add_self, subtract, subtract_self, compare, multiply, square and divide on pointer and length pairs, and the loops over one array and one word, compute the exact sum, difference, order, product, square, quotient and remainder; they write no word outside the result range, access nothing outside the arrays they are given, and leave no local array behind.", "quantifier": "every memory, every position and length of the arrays in it (parts of one block included), every content, provided the result range has no word in common with the operands", "why_tests_cant": "Out-of-bounds accesses and writes to a neighbouring array need not show in the result; the Karatsuba recursion passes pointers into the middle of its own result and of local arrays, at every depth.", "anchors": ["src/BigIntegerCalculator/AddSub.cpp:add, add_self, subtract, subtract_self, compare", "src/BigIntegerCalculator/SquMul.cpp:multiply, square, subtract_core", "src/BigIntegerCalculator/DivRem.cpp:divide, remainder, add_divisor, subtract_divisor"]}
{"id": "C58", "title": "Moved-from objects and swap", "statement": "x = std::move(y) gives x the value of y and leaves y a canonical object (its own value if that is in the int range, otherwise 1 or -1); std::swap exchanges two objects exactly and does nothing to an object swapped with itself; an object that was moved from can be used in every further call.", "quantifier": "all objects of any size, all pairs of objects including one object twice, all chains of public calls", "why_tests_cant": "The move operations are generated by the compiler and move the two members separately, so the sign is left without its words; whether every such remainder is a valid object, whatever the value was and whatever is called next, is a statement about all objects and all call chains.", "anchors": ["include/public/bigintegercpp/BigInteger.h:BigInteger (implicit move members, _sign, _bits)", "src/BigInteger.cpp:BigInteger::assert_valid"]}
{"id": "C59", "title": "Every call ends, and lets out only the exceptions named for it", "statement": "No call runs for ever. Division and remainder throw only the division-by-zero error, and only if the divisor is zero; pow only out-of-range, for a negative exponent, and overflow; mod_pow only out-of-range, for a negative exponent, and division by zero, for modulus zero; casts and to_string only overflow; BigInteger(double) only overflow, for infinities and NaN; to_byte_array and get_byte_count only the runtime error, for the unsigned form of a negative value; every other call throws nothing, parsing of any text included. A statement or loop-free program over BigInteger objects ends and lets out no other exception.", "quantifier": "all objects and arguments, of any size and without the limit below which results are exact, both build modes; all loop-free programs, operands aliased or not", "why_tests_cant": "That no input makes a loop run for ever, and that no path through nested helpers throws something else, is a statement about all inputs; no run of tests shows the absence of either.", "anchors": ["src/BigInteger.cpp:all public functions", "src/BigIntegerCalculator/GcdInv.cpp:gcd", "src/BigIntegerCalculator/PowMod.cpp:pow", "src/BigIntegerCalculator/FastReducer.cpp:reduce, sub_mod"]}
{"id": "C60", "title": "Constants of the library and global objects", "statement": "The static constants of the library are initialised, in the order of their definitions, to -2^31, 1, 0, -1; a BigInteger constructed from an int32_t, int64_t, word array or byte array has the same value whether it is constructed before or after that, e.g. as a global object of another file.", "quantifier": "every argument of the constructors, both build modes", "why_tests_cant": "The order of initialisation across files is chosen by the linker; a test program fixes one order and usually constructs everything inside main.", "anchors": ["src/BigInteger.cpp:s_bnMinInt, s_bnOneInt, s_bnZeroInt, s_bnMinusOneInt", "src/BigInteger.cpp:BigInteger(int32_t), BigInteger(int64_t), BigInteger(uint_array, bool), BigInteger(byte_array, bool, bool)"]}
{"id": "C61", "title": "Postfix ++ and -- have the old value", "statement": "a++ and a-- add and subtract one, and the value of the expression is the value a had before, as with the built-in operators; so b = a++ leaves the old value in b.", "quantifier": "every object, every program that assigns the result, the object itself included", "why_tests_cant": "A test shows the result for its values; that no object of any size gives the old value (or that all do) is a statement about all of them.", "anchors": ["src/BigInteger.cpp:operator++(int), operator--(int)"]}
{"id": "C62", "title": "Floating-point conversions keep order and sign", "statement": "If a <= b then double(a) <= double(b) and float(a) <= float(b), with overflow going to the infinity of the right sign; a non-zero value and its negative convert to numbers that differ in the sign bit only. Constructing from doubles keeps order as well.", "quantifier": "all pairs of values of any size; all pairs of finite doubles", "why_tests_cant": "Monotonicity of a rounding conversion is a statement about pairs; faults sit at rounding and overflow boundaries of which there are as many as exponents.", "anchors": ["src/BigInteger.cpp:BigInteger::operator double, operator float", "src/BigInteger.cpp:BigInteger(double)", "include/NumericsHelpers.h:get_double_from_parts, get_double_parts"]}
{"id": "C63", "title": "Laws of modular powers", "statement": "For a >= 0, m > 0: mod_pow(a, e+f, m) is mod_pow(a,e,m)*mod_pow(a,f,m) % m; mod_pow(a*b,e,m) is mod_pow(a,e,m)*mod_pow(b,e,m) % m; mod_pow(mod_pow(a,e,m),f,m) is mod_pow(a,e*f,m); a may be replaced by a % m; mod_pow(a,p-1,p) is 1 for a prime p not dividing a; with m = p*q for two different primes p and q, e*d = 1 mod (p-1)(q-1), decrypting an encrypted message gives the message.", "quantifier": "all bases, exponents and moduli; all primes", "why_tests_cant": "They are identities between results of long computations over all arguments; key sizes used in practice are beyond enumeration.", "anchors": ["src/BigInteger.cpp:BigInteger::mod_pow", "src/BigIntegerCalculator/PowMod.cpp:pow(value, power, modulus)", "src/BigIntegerCalculator/FastReducer.cpp"]}
{"id": "C64", "title": "Multiplication is subquadratic", "statement": "The product of two numbers of n and n+e 32-bit words takes at most 21*n^(log2 3) + 6*e*n steps (n >= 9; a step is one loop iteration or one word filled or copied), for equal sizes fewer than any multiple of n^2 from some size on; it needs at most 14*n words of temporary storage for equal sizes, and its recursion is at most log2 n levels deep, never more than 28.", "quantifier": "all operands of all sizes and values", "why_tests_cant": "A test measures the sizes it tries; a bound for the worst case over all values, and the growth as the size increases, are statements about all of them.", "anchors": ["src/BigInteger.cpp:operator*=", "src/BigIntegerCalculator/SquMul.cpp:multiply, square, subtract_core", "src/BigIntegerCalculator/AddSub.cpp:add, add_self"]}
{"id": "C65", "title": "Division is quadratic at worst", "statement": "Quotient and remainder of an m-word by an n-word number take at most (m-n+1)*(2n+8) + 4m + n steps, with a fixed number of corrections of each quotient digit, and O(m+n) words of temporary storage, without recursion.", "quantifier": "all valid operands of all sizes and values", "why_tests_cant": "The slow cases of long division (corrections of the guessed digit) are rare: about one in 2^31 for random operands. A bound needs the argument, not samples.", "anchors": ["src/BigInteger.cpp:operator/=, operator%=", "src/BigIntegerCalculator/DivRem.cpp:divide, remainder, divide_guess_too_big"]}
{"id": "C66", "title": "Addition and subtraction are linear", "statement": "Sum and difference of numbers with at most m words take at most 9m+4 steps and 3m+2 words of temporary storage.", "quantifier": "all operands of all sizes and values", "why_tests_cant": "A worst-case bound over all values and sizes is not something samples can establish.", "anchors": ["src/BigInteger.cpp:operator+=, operator-=, add, subtract", "src/BigIntegerCalculator/AddSub.cpp"]}
{"id": "C67", "title": "Algorithms written with the operators are right at every size", "statement": "Euclid's algorithm, modular powers by repeated squaring, Newton's integer square root, the extended Euclidean algorithm and factorials, written by a user with the operators of the class, end and give the mathematically right answer at every size, also where greatest_common_divisor and mod_pow of the library do not; Fermat's theorem and RSA decryption hold through them.", "quantifier": "all operand values whose intermediate results stay below 2^26 words, all runs", "why_tests_cant": "The loops run for unboundedly many steps over unboundedly large values; their correctness is a loop invariant, not a sample.", "anchors": ["src/BigInteger.cpp:operator%, operator/, operator*, operator+, operator-, operator>>=, operator++, operator--, is_zero, is_even, abs, operator<"]}
{"id": "C68", "title": "Array accesses stay inside their arrays", "statement": "Constructing from words, bytes or text, shifting, bitwise operators, comparison, equality, hashing, bit length, power-of-two test, export to words and bytes, and to_string never read or write an element outside the arrays they work on.", "quantifier": "all objects (also objects of non-canonical form where stated so), all shift counts, all byte and word arrays, all modes of to_byte_array", "why_tests_cant": "An access one element outside an array is usually silent, and the loop bounds depend on lengths and values of unbounded size.", "anchors": ["src/BigInteger.cpp:BigInteger, operator<<, operator>>, operator&, operator|, operator^, compare_to, equals, get_hash_code, get_bit_length, is_power_of_two, to_uint32_array, try_get_bytes, to_string, parse", "src/BigIntegerCalculator/PowMod.cpp:actual_length", "src/BigIntegerCalculator/GcdInv.cpp:lehmer_core"]}
{"id": "C69", "title": "Cost of decimal text", "statement": "to_string of a number of n 32-bit words takes at most 5/9 n^2 + 24 n + 41 steps and 12 n + 21 words of temporary storage, and never less than n^2/2 steps; parse of a text of l characters takes at most 5/6 l^2 + 25 l + 1 steps and l/3 + 5 words, and for l + 1 digits never less than (l^2 - 14 l)/5 steps.", "quantifier": "all numbers of all sizes, all texts shorter than 2^34 characters", "why_tests_cant": "Worst-case and best-case growth over all values and unbounded sizes is not something timings of samples can establish.", "anchors": ["src/BigInteger.cpp:to_string, parse, operator*=, operator+="]}
{"id": "C70", "title": "Cost of powers and modular powers", "statement": "pow of a number of n 32-bit words to an exponent p of L bits takes at most 22 N^2 + (10 N + 2) L steps with N = 1 + p n, and (for a base other than -1, 0, 1, an exponent of at least 2 and a power that fits) at least 3 N (L + 1); mod_pow with a modulus in the int range takes exactly one step per word of the base and one per bit of the exponent; mod_pow with a modulus of m < 32 words, a base of l words and an exponent of L bits takes at most (6 m^2 + 34 m + 9) L + l (2 m + 8) + 14 m steps and 2 l + 10 m words.", "quantifier": "all bases, exponents and moduli of the stated kinds, all sizes", "why_tests_cant": "A bound that holds for every value and every size is not something timings of samples can establish.", "anchors": ["src/BigInteger.cpp:pow, mod_pow", "src/BigIntegerCalculator/PowMod.cpp:pow, powCore", "src/BigIntegerCalculator/BitsBuffer.cpp:multiplySelf, squareSelf, reduce, apply"]}
{"id": "C71", "title": "Running out of memory", "statement": "If a request for memory is refused during an operation, the caller gets std::bad_alloc and no object has changed; in any case every object remains canonical, and a run that does not end with bad_alloc has exactly the effect it has with unlimited memory. try_parse, which reports failures by its result, returns false and leaves its target as it was.", "quantifier": "all statements and programs over named objects (aliasing, loops and try/catch included), all object values, all patterns of refused requests", "why_tests_cant": "Every allocation of every operation would have to fail once, on every combination of operand sizes; test suites run with memory that is never refused.", "anchors": ["include/public/bigintegercpp/BigInteger.h:BigInteger (members _sign, _bits, implicit copy and move)", "src/BigInteger.cpp:operator|=, div_rem, operator++(int), operator--(int), try_parse and the other assigning operators"]}
{"id": "C72", "title": "Sizes of results and encodings", "statement": "The sizes of results and of encodings can be told from get_bit_length of the operands: a sum or difference is at most one bit longer than the longer operand; a product of non-zero values has the sum of the lengths up to one, one more only for two minus powers of two; a quotient has the difference up to one; a remainder is no longer than either operand; a power x^n has between n*(m-1) and n*m+1 bits; &, |, ^ give nothing longer than the longer operand and ~ keeps the length; negation changes it exactly for plus and minus powers of two; << n adds n and >> n takes off n; get_byte_count is m/8+1 (signed) or m/8 rounded up but at least 1 (unsigned); to_uint32_array has m/32+1 words (none for zero); the number of digits of to_string is between 3/10*(m-1) and 28/93*m+1.", "quantifier": "all pairs of values of fewer than 2^30 words (2^26 for >>), all shift counts and exponents", "why_tests_cant": "The extreme cases are at powers of two and their neighbours, of either sign, at every size.", "anchors": ["src/BigInteger.cpp:get_bit_length", "src/BigInteger.cpp:get_byte_count", "src/BigInteger.cpp:to_uint32_array", "src/BigInteger.cpp:to_string", "src/BigInteger.cpp:operators + - * / % & | ^ ~ << >> and pow"]}
{"id": "C73", "title": "Threads that share only objects they read do not disturb each other", "statement": "Several threads use BigInteger objects at the same time. If no thread assigns to an object that another one names, there is no data race, every thread ends as it would alone (normally or with the same exception) and its objects have the values they would have, whatever the schedule; objects nobody assigns to are never changed, so one object may be read (as operand, in comparisons, copied) by any number of threads. The condition is needed: an object assigned to by one thread and copied by another can be read half assigned, giving a value it never had.", "quantifier": "all families of programs with branches, loops and try blocks over any number of objects and threads, all initial objects, all schedules", "why_tests_cant": "The schedules are unbounded in number and a test sees only those that happen; a cache or scratch member written by a const operation would show only under rare timing.", "anchors": ["src/BigInteger.h:_sign, _bits, const members", "src/BigInteger.cpp:operators, div_rem, pow, comparisons"]}
{"id": "C74", "title": "What the unit tests compare with is right", "statement": "The unit tests compare each result of the library with that of a second implementation on byte arrays (tests/MyBigInt.cpp). That implementation returns the exact integer for sign, ~, abs, ++, --, negation, square, +, -, *, min, max, truncated / and %, both results of div_rem, &, |, ^, << and >> by counts of either sign, gcd, pow and mod_pow. So the comparison succeeds exactly for operands on which the library is right: always for the unary operations, +, -, *, /, %, min, max, &, |, ^ and pow; for div_rem, << and >>, gcd and mod_pow it fails on exactly the operands on which the library is wrong (C13, C16, C19, C22, C23). It is not right for a zero divisor, where it returns a number and the library throws, and for unary operations it does not know, which it takes for squares.", "quantifier": "all operands of fewer than 2^26 words, all shift counts of the int range, all moduli (below 2^992 for the comparison of mod_pow)", "why_tests_cant": "The tests cannot test what they compare with; an error common to both sides, or a wrong reference value for some operand, would go unnoticed or be blamed on the library.", "anchors": ["tests/MyBigInt.cpp:DoUnaryOperatorMine, DoBinaryOperatorMine, DoTertanaryOperatorMine", "tests/MyBigInt.cpp:Add, Negate, Multiply, Divide, Remainder, GCD, Pow, ModPow, ShiftLeft, ShiftRight, Max, And, Or, Xor, Not", "tests/BitArray.cpp", "tests/stack_calc.cpp:DoUnaryOperatorSN, DoBinaryOperatorSN, DoTertanaryOperatorSN"]}
{"id": "C75", "title": "What a unit test of an operation tests", "statement": "A unit test writes its operands as text, byte by byte with blanks between them, and hands the text to a calculator that computes with the library and with the reference implementation and compares the decimal texts on top of the two stacks. An operand without the byte 0x20 is read back as it was written; each byte 0x20 is read as two zero bytes. The test succeeds exactly when the two results are the same integer (both having a text, C30). So tests of +, -, *, min, max, /, %, &, |, ^ succeed for all operands; a test of >> fails on exactly the operands for which the library is wrong; a test of >> by 32 succeeds for every operand because its count is read as 0; the remainder of div_rem is compared by an assertion only, so a wrong one goes unnoticed with NDEBUG and ends the program without; and operands whose last byte is at most 0x7f, such as all those drawn by Random::NextBytes, are never negative, so no test of >>, div_rem or mod_pow (modulus below 2^992) made from them can meet the errors of the library.", "quantifier": "all byte arrays of fewer than 2^26 bytes, all operations of the calculator, both settings of NDEBUG", "why_tests_cant": "What a test tests, and what it cannot notice, is not itself tested.", "anchors": ["tests/stack_calc.cpp:StackCalc, DoNextOperation, DoConstruction, VerifyOutParameter", "tests/utils.h, tests/MyBigInt.cpp:Print", "tests/op_rightshift.cpp:VerifyRightShiftString", "tests/op_divide.cpp, tests/divrem.cpp"]}
{"id": "C76", "title": "Objects and built-in numbers in one expression", "statement": "An expression that mixes an object with a number of a built-in type (x + 5, 5 - x, x < 2u, x += 3L, x << n, pow(x, n)) either does not compile or means what the library's function does with the number converted to an object (or to int, for shift counts and exponents): it is never silently computed by a built-in operator on the object cast to a number. Which expressions compile: with a const object all of them, for numbers of the types bool, char, short, int, unsigned, the 64-bit types that int64_t and uint64_t name, float and double; with an object that is not const no binary operator or comparison compiles (the conversion functions make it ambiguous), only the compound assignments and some shifts. What compiles returns the exact result on the integral part of the number, so fractions are lost (x == 2.5 holds for 2). A shift count or exponent that is no int is reduced modulo 2^32 without warning: x << 4294967296 is x, pow(x, 4294967296) is 1.", "quantifier": "all operators, all arithmetic types on either side, const or not, Linux and macOS; all values of numbers and objects", "why_tests_cant": "Expressions that must not compile cannot be part of a test, and tests use few of the combinations of types.", "anchors": ["include/public/bigintegercpp/BigInteger.h:BigInteger (constructors, conversion operators, friend operators)", "src/BigInteger.cpp:BigInteger::BigInteger, operator<<, operator>>, pow"]}
{"id": "C77", "title": "Python: objects of any type, truth values, exceptions", "statement": "A Python operator between a BigInteger and another object has the value of C45 if the object is a BigInteger or an int (bool included), and raises TypeError for every other object, on either side; that holds for == and != too, so comparing with None, with a str or with a float raises instead of giving False, and a search in a list raises when it meets such an item before a match. A BigInteger on the left never gives way to the operators of an object that knows BigIntegers. Division by zero raises RuntimeError (never ZeroDivisionError), a negative exponent IndexError, an exponent or a BigInteger shift count too large for a C++ int OverflowError, such an int shift count RuntimeError. pow(a, e, m) needs BigIntegers for a and for one of e and m. BigInteger(value) takes an int or a buffer and nothing else, not even a BigInteger. A BigInteger should count as false exactly if it is zero; it always counts as true. x op= y is x = x op y. sum, max, min and in are right on lists of BigIntegers and ints; sum(items) is an int, unless the start value is a BigInteger.", "quantifier": "all operators, all values, all kinds of Python object on either side, lists of any length", "why_tests_cant": "The tests try a few operands of the two expected types; those for the TypeErrors of pow pass whatever pow does, because the lambda they call lacks an argument.", "anchors": ["bindings/python/python-bindings.cpp:PYBIND11_MODULE", "include/exceptions.h:DivideByZero", "bindings/python/test_python_bindings.py:test_pow"]}
{"id": "C78", "title": "What greatest_common_divisor does, for every pair of operands", "statement": "greatest_common_divisor(a, b) and greatest_common_divisor(b, a) have the same outcome, and so has any call with the signs changed. No call reads or writes outside its arrays. An answer is positive unless both operands are zero, and no larger than the smaller operand that is not zero.", "quantifier": "every pair of values of any size and sign, every number of iterations, both build modes", "why_tests_cant": "The outcome depends on the leading 64 bits of both operands and on words left over in the arrays after each step; arrays and iterations are unbounded, and a read before an array is usually silent.", "anchors": ["src/BigInteger.cpp:greatest_common_divisor", "src/BigIntegerCalculator/GcdInv.cpp:gcd, lehmer_core, extract_digits", "src/BigIntegerCalculator/BitsBuffer.cpp:Overwrite, Refresh, Reduce"]}
{"id": "C79", "title": "Algorithms and containers see integers", "statement": "A C++ algorithm or container that looks at objects only through the relational operators and get_hash_code does with the objects exactly what it would do with the integers they stand for: sorting gives the ascending order and loses nothing (equal objects stay in their order), an ordered set holds every inserted integer once in ascending order, a hashed set holds it exactly once. In Python the same holds for BigIntegers, and for BigIntegers mixed with ints as long as nothing is hashed; a set or dict that mixes a BigInteger of the int range with the equal int keeps both, although they compare equal.", "quantifier": "all algorithms (every sequence of questions, depending on earlier answers in any way), all objects, any number of them", "why_tests_cant": "The set of algorithms and of sequences of operations on a container is infinite; a single inconsistent answer of a comparison or hash corrupts a container silently.", "anchors": ["include/public/bigintegercpp/BigInteger.h:operator<, operator==", "src/BigInteger.cpp:compare_to, equals, get_hash_code", "bindings/python/python-bindings.cpp:__hash__, __eq__, __lt__"]}
{"id": "C80", "title": "Shifts, bitwise operators, comparisons and byte conversions are linear", "statement": "For numbers of at most m >= 1 words: a <<= s takes at most 9m + 4(s/32) + 4 steps; a >>= s at most 13m steps, whatever the count; a shift by a negative count (including INT_MIN) at most 28m steps to the right and 20m + 14(|s|/32) + 8 to the left; &=, |= and ^= at most 16m + 8; negation 2m; ~ 11m + 6; the hash, the bit length and the power-of-two test look at each word at most once; an order comparison looks at no more words than the shorter operand has, at none if signs or lengths differ, at all of them for equal numbers, and copies nothing. The constructor from l bytes takes at most 4l + 3 steps, to_byte_array at most 11m + 10. None of them recurses, and temporary storage is at most 5m + 4 words (plus the words a left shift adds).", "quantifier": "all operands of all sizes and values, all shift counts, all byte strings, both byte orders and signednesses", "why_tests_cant": "A worst-case bound over all values and sizes is not something samples can establish.", "anchors": ["src/BigInteger.cpp:operator<<=, operator>>=, operator&=, operator|=, operator^=, operator~, operator-, compare_to, equals, get_hash_code, get_bit_length, is_power_of_two, to_byte_array, get_byte_count, BigInteger(const std::vector<uint8_t>&, bool, bool)"]}
{"id": "C81", "title": "greatest_common_divisor is quadratic if it ends at all", "statement": "For operands of at most m words, a call of greatest_common_divisor that ends (returns, throws or fails) takes at most 1286m^2 + 8739m + 133 steps; n iterations of its main loop take at most n(10m+68) + 6m^2 + 35m + 133 steps; with an operand of at most two words (below 2^64) at most 20m + 129 steps and m words of storage. It never recurses and never holds more than 8m words of temporary storage, even on the operands on which it never returns; on those every iteration takes at least (words of a + words of b + 1) steps. So a call ends exactly when its cost is bounded.", "quantifier": "all operands of all sizes and values, every number of iterations", "why_tests_cant": "A worst-case bound over all values and sizes is not something samples can establish; nor can a test distinguish a very long run from one that never ends.", "anchors": ["src/BigInteger.cpp:greatest_common_divisor", "src/BigIntegerCalculator/GcdInv.cpp:gcd, extract_digits, lehmer_core", "src/BigIntegerCalculator/BitsBuffer.cpp:Reduce, Refresh, Overwrite"]}
{"id": "C82", "title": "pow, mod_pow and gcd on word arrays compute the right number and leave memory as it was", "statement": "Given arrays of words that lie anywhere in memory (also overlapping, or the same), pow(value, power) returns the words of x^p, or throws overflow_error when 1 + p times the number of words reaches 2^31 - 1; pow(value, power, modulus) returns the words of x^p mod z for a modulus of fewer than 32 words with a nonzero top word, for exponents of one or several words; gcd(left, right) returns the words of the greatest common divisor where no Lehmer guess is taken. For moduli and operands of any size the routines on memory (with the exchange of buffers, the copies taken by value and by assignment, the reducer's own arrays, the filled scratch words) behave as the list functions of C18-C20 do, up to an out-of-bounds access of the latter. In all cases every block of memory holds the same words afterwards and no block is left behind.", "quantifier": "all memories, all positions and lengths of the arrays, all values and exponents", "why_tests_cant": "That no word outside the result is changed and no buffer is confused with its copy, for arrays of every size and position, cannot be read off from results on samples.", "anchors": ["src/BigIntegerCalculator/BitsBuffer.cpp:BitsBuffer, MultiplySelf, SquareSelf, Reduce, Apply, Refresh, Overwrite", "src/BigIntegerCalculator/FastReducer.cpp:FastReducer, Reduce, DivMul, SubMod", "src/BigIntegerCalculator/PowMod.cpp:pow, pow_core, actual_length", "src/BigIntegerCalculator/GcdInv.cpp:gcd, extract_digits, lehmer_core"]}
{"id": "C83", "title": "mod_pow stays in bounds for every modulus except the powers of 2^32 of 32 words or more", "statement": "BigInteger::mod_pow(value, exponent, modulus) with a non-negative exponent and a nonzero modulus that is not, up to sign, 2^(32k) with k >= 31, never accesses memory out of bounds, overflows a signed integer, divides by zero, throws or runs forever, although from 2^992 on its result is often wrong: a release build returns a canonical number of at most twice as many words as the modulus, zero or of the sign of value^exponent; a debug build returns the same or fails an assertion (both occur). Conversely every modulus +-2^(32k) with k >= 31 admits a value and an exponent for which memory is overrun.", "quantifier": "all values, all non-negative exponents, all nonzero moduli of up to 2^30 - 2 words", "why_tests_cant": "The scratch buffers keep words of earlier products, and the next product is computed on top of them; that no carry or length goes out of bounds for any content, any number of steps and any recursion depth is an invariant, not a sample.", "anchors": ["src/BigInteger.cpp:BigInteger::mod_pow", "src/BigIntegerCalculator/PowMod.cpp:pow_core", "src/BigIntegerCalculator/FastReducer.cpp:Reduce, DivMul, SubMod", "src/BigIntegerCalculator/BitsBuffer.cpp:MultiplySelf, SquareSelf, Apply", "src/BigIntegerCalculator/SquMul.cpp:multiply, subtract_core"]}
{"id": "C84", "title": "mod_pow with large moduli takes quadratic time per bit of the exponent", "statement": "BigInteger::mod_pow(value, exponent, modulus) with a modulus of K >= 32 words, a value of l words and an exponent below 2^L makes at most (42 K^2 + 146 K + 79)(L + 32) + l (2K + 8) + 2 (K + 2)^2 + 27 K + 9 steps (iterations of a loop, words filled or copied), nests recursive calls at most log2(K) - 2 deep (rounded up) and holds O(l + K log K) words of temporary arrays, however the call ends; in particular the loop in which the reducer corrects its estimate never goes round more than twice. A call with an exponent of k >= 1 words that returns copies at least 8 K words for each of the 32 k bits.", "quantifier": "all values, all exponents, all moduli of 32 words or more", "why_tests_cant": "The number of corrections of the reciprocal estimate is bounded by an inequality about all quotients, not by samples; times for a few sizes say nothing about the worst input.", "anchors": ["src/BigInteger.cpp:BigInteger::mod_pow", "src/BigIntegerCalculator/PowMod.cpp:pow_core", "src/BigIntegerCalculator/FastReducer.cpp:FastReducer, Reduce, DivMul, SubMod", "src/BigIntegerCalculator/AddSub.cpp:subtract_self", "src/BigIntegerCalculator/BitsBuffer.cpp:MultiplySelf, SquareSelf, Reduce, Apply"]}
{"id": "C85", "title": "Fermat's test with mod_pow", "statement": "For a prime p and an even number a with 0 < a < p, BigInteger::mod_pow(a, p - 1, p) is 1 exactly if p < 2^992: for larger primes it never is, so Fermat's test with an even base (2, for example) rejects every prime of 993 bits or more. More generally, for every modulus of absolute value 2^992 or more, every exponent but 0 and every value smaller than the modulus, a power of two up to 2^32 that divides the value divides the result; for odd moduli the right residue is often odd, for instance for the base 2 and the exponent that is the number of bits of the modulus, whatever the modulus is.", "quantifier": "all primes, all even bases; all moduli from 2^992 up to 2^30 - 2 words, all smaller values, all nonzero exponents", "why_tests_cant": "It is a statement about all primes and all exponents, which have hundreds of digits; it needs an invariant of the scratch buffers that holds through any number of multiplications and reductions.", "anchors": ["src/BigInteger.cpp:BigInteger::mod_pow", "src/BigIntegerCalculator/PowMod.cpp:pow_core", "src/BigIntegerCalculator/FastReducer.cpp:Reduce, SubMod", "src/BigIntegerCalculator/BitsBuffer.cpp:Reduce, MultiplySelf, SquareSelf, Apply"]}
{"id": "C86", "title": "Builds where long has 32 bits", "statement": "Compiled where long has 32 bits (Windows, for which setup.py has branches, and 32-bit Unix), +, -, *, ++, --, ~, parse, get_bit_length, pow, mod_pow, greatest_common_divisor and the conversions to and from double give the results they give where it has 64 bits, and the conversions to long and unsigned long return the number when it is in the range of those types and throw std::overflow_error when it is not.", "quantifier": "all pairs of BigIntegers of any sign and size, all texts, all bit patterns of a double, debug and release builds", "why_tests_cant": "The failing inputs depend on the sign, the number of words and the carries inside the numbers; a test shows one input on one platform, and undefined shifts can appear to work under one compiler.", "anchors": ["src/BigIntegerCalculator/AddSub.cpp:add, subtract, add_self", "src/BigIntegerCalculator/SquMul.cpp:multiply, square, subtract_core", "src/BigIntegerCalculator/GcdInv.cpp:lehmer_core", "src/BigIntegerCalculator/FastReducer.cpp:DivMul, SubMod", "src/BigIntegerCalculator/PowMod.cpp:pow_core, pow", "src/BigInteger.cpp:operator+=, operator-=, operator*=, operator++, operator--, operator~, parse, get_bit_length, operator long, operator unsigned long, operator double, BigInteger(double), double_IsFinite", "setup.py:CMakeBuild"]}
{"id": "C87", "title": "What the tests with random operands test", "statement": "Whatever numbers the generator draws and in whatever order arguments are evaluated: two random arrays that a test makes with the same function are equal, so all ten samples of a test are the same; the unit test of greatest_common_divisor passes and checks only equal operands, operands of two bytes and zero, on which the library is right; the tests of div_rem and mod_pow with random operands pass; the tests of ^, &, |, min, max, / and % on two large operands pass and check only x op x.", "quantifier": "all engines behind the generator, all states of it (all seeds), both orders of evaluation of the arguments, debug and release builds", "why_tests_cant": "It is a statement about what the tests can find: running them shows one engine and one seed, and they pass whether or not the operands vary.", "anchors": ["tests/Random.h:Random", "tests/Random.cpp:Next, NextBytes", "tests/MyBigInt.cpp:GetRandomByteArray, GetNonZeroRandomByteArray", "tests/gcd.cpp:RunGCDTests, VerifyIdentityString", "tests/divrem.cpp:RunDivRem_TwoLargeBI, RunDivRem_TwoSmallBI, RunDivRem_OneSmallOneLargeBI, RunDivRem_OneLargeOne0BI, RunDivRem_OneSmallOne0BI", "tests/modpow.cpp:mod_pow3SmallInt, mod_pow1Large2SmallInt, mod_pow2Large1SmallInt", "tests/op_xor.cpp:op_xor"]}
{"id": "C88", "title": "A stack machine with 32-byte integers runs as its integer semantics say", "statement": "A stack machine in the manner of the virtual machine the library was written for keeps its integers as BigInteger objects, pushes results of at most 32 bytes by get_byte_count() and faults on larger ones, on a missing operand and on anything thrown. Every program, run for any number of steps and from any stack of 32-byte integers, has after each step the program counter, the stack and the verdict (running, halted, faulted) that integer arithmetic with the bounds -2^255 and 2^255 gives. Every object on the stack exports as at most 32 bytes, and debug and release builds run every program alike. The code violates it for counts of INT_MIN (undefined instead of a fault), some right shifts of negative values, and mod_pow with an int-sized modulus and a negative remainder or a zero modulus.", "quantifier": "all programs of the machine (arithmetic, bitwise, comparison, shift, power and stack instructions, jumps and conditional jumps), all stacks, all numbers of steps, debug and release builds", "why_tests_cant": "Programs with loops and operand values are unbounded in number, and a machine that must agree with another implementation is wrong if a single reachable step differs.", "anchors": ["README.md", "src/BigInteger.cpp:get_byte_count, to_byte_array, operator int, operator<<, operator>>, pow, mod_pow, operator%, operator/"]}
{"id": "C89", "title": "Any chain of conversions brings the value back", "statement": "A value is sent through any number of the forms in which the library gives it away and takes it back: bytes (signed or unsigned, either byte order), sign and words, text, 32- and 64-bit signed and unsigned integers, double and Python int. It comes back unchanged, except that a double cuts it to its 53 leading bits, once; or the chain ends with runtime_error (unsigned bytes) or overflow_error (integers, double) at the first form that cannot hold it. Two orders of the same forms never bring back different objects, without a double the order cannot change whether the value comes back, and chains keep the order of values. The code violates it: the text of negative values from -2^31 down whose number of digits is divisible by 9, and (int32_t) and (int64_t) of the least value of their type, are undefined.", "quantifier": "all values of fewer than 2^26 32-bit words, all finite sequences of the forms, debug and release builds", "why_tests_cant": "Sequences of conversions are unbounded in number and each step starts from an object made by another one, so a single form that leaves an object in an unusual representation would spoil later ones.", "anchors": ["src/BigInteger.cpp:to_byte_array, BigInteger(byte_array), BigInteger(int, uint_array), to_string, parse, operator int, operator unsigned int, operator long, operator unsigned long, operator double", "bindings/python/python-bindings.cpp:to_py_int, to_biginteger"]}
{"id": "C90", "title": "A BitsBuffer is a natural number", "statement": "The buffers that powers and greatest common divisors are computed in hold natural numbers. Any sequence of calls of the constructors, MultiplySelf (also by the buffer itself), SquareSelf, the three Reduce, the two Overwrite and Refresh on any buffers of one size with a zeroed scratch buffer has the effect of the same calculation with numbers: after each call GetBits() are the digits of the number to the base 2^32 with zeros above, GetLength() is how many it needs, all other buffers are as they were and the scratch buffer is all zeros again. The code violates it: Overwrite and Refresh of a number longer than what is to be left of it fill the wrong words (and not with zeros), and the words left over spoil later products; and Reduce with a FastReducer reduces nothing: it only shortens the length, and it writes past an array if the modulus is a power of 2^32 and the number has twice its words.", "quantifier": "all sequences of calls, any number of buffers of any size, all numbers with room for the products, all moduli without leading zero words, all arguments", "why_tests_cant": "Whether a call leaves words behind shows only several calls later and only for certain lengths, and sequences and lengths are unbounded.", "anchors": ["include/BitsBuffer.h:BitsBuffer", "src/BigIntegerCalculator/BitsBuffer.cpp:BitsBuffer, MultiplySelf, SquareSelf, Reduce, Overwrite, Refresh, Apply", "src/BigIntegerCalculator/FastReducer.cpp:FastReducer, Reduce"]}
{"id": "C91", "title": "Python: the conversion functions in both byte orders", "statement": "The functions of the bindings that turn a Python int into a BigInteger and a BigInteger into a Python int have parameters for the byte order of the buffer in between (and, for the second, for the sign). Whatever the parameters, the integer is the same before and after; the only exception is that of the unsigned form of a negative value.", "quantifier": "every Python int and every BigInteger, both byte orders, both signs", "why_tests_cant": "Buffers read back in the wrong order give the right number for every one-byte number and every palindrome, so examples can pass; no caller in the bindings sets the parameters.", "anchors": ["bindings/python/python-bindings.cpp:to_biginteger", "bindings/python/python-bindings.cpp:to_py_int"]}
{"id": "C92", "title": "The numeric helpers lose nothing", "statement": "Taking a finite double apart gives a sign, an exponent and a mantissa of at most 53 bits whose product is exactly the double, and putting these together gives the same double, bit for bit (minus zero and denormalised numbers included). Putting together any sign, any exponent and any 64-bit mantissa gives the double next to mantissa * 2^exponent on the side of zero, an infinity from 2^1024 on, and is undefined exactly for exponents within about a thousand of the ends of int. The count of leading zeros is exact in 32 and 64 bits. Complementing an array twice gives it back. Mixing two hashes is injective in either argument, so two BigIntegers of one sign that differ in exactly one word have different hash codes.", "quantifier": "every double, every sign, every int exponent, every 64-bit mantissa, every array of words, every pair of ints", "why_tests_cant": "There are 2^64 doubles and 2^96 exponent-mantissa pairs; the off-by-one places (53 bits, the exponents where numbers become denormalised or vanish, 2^1024) are single points among them.", "anchors": ["include/NumericsHelpers.h:get_double_parts", "include/NumericsHelpers.h:get_double_from_parts", "include/NumericsHelpers.h:cbit_high_zero", "include/NumericsHelpers.h:dangerous_make_twos_complement", "include/NumericsHelpers.h:combine_hash", "src/BigInteger.cpp:BigInteger::get_hash_code"]}
{"id": "C93", "title": "Python where long has 32 bits", "statement": "On a build in which long has 32 bits, as on Windows, Python's binary operators (plain and reflected, with a BigInteger and an int in either place), two- and three-argument pow, ~ and get_bit_Length give the answers and exceptions that they give elsewhere. (The code violates this: + and - are right exactly if both operands lie strictly between -2^31 and 2^31, or if magnitudes are added and no carry has to pass the second word of the longer operand when the other has one word; in the remaining cases the answer is 2^64 too small in magnitude or the call is undefined behaviour.)", "quantifier": "every operator, every pair of operands (BigInteger and BigInteger, BigInteger and int, int and BigInteger) of any value the bindings convert, both assert configurations", "why_tests_cant": "The wrong sums need a carry past the 64th bit, which one pair in 2^32 has; the undefined shifts may give the right answer on the machine where the tests run; and the project's tests run only where long has 64 bits.", "anchors": ["bindings/python/python-bindings.cpp:__add__", "bindings/python/python-bindings.cpp:__radd__", "bindings/python/python-bindings.cpp:__sub__", "bindings/python/python-bindings.cpp:__rsub__", "bindings/python/python-bindings.cpp:__mul__", "bindings/python/python-bindings.cpp:__rmul__", "bindings/python/python-bindings.cpp:__pow__", "bindings/python/python-bindings.cpp:__rpow__", "bindings/python/python-bindings.cpp:__invert__", "src/BigIntegerCalculator/AddSub.cpp:add", "src/BigIntegerCalculator/AddSub.cpp:subtract"]}
{"id": "C94", "title": "Through float and back", "statement": "A finite float given to the constructor is truncated toward zero; infinities and NaNs throw overflow_error. A float that is an integer (other than minus zero, which becomes plus zero) comes back bit for bit from (float) BigInteger(f). BigInteger((float) a) has at most 24 significant bits and differs from a by at most |a| / 2^23; a second passage changes nothing; from 2^128 - 2^103 on it throws overflow_error. The value survives exactly if it has at most 24 significant bits and is below 2^128 in magnitude.", "quantifier": "every float pattern, every BigInteger", "why_tests_cant": "There are 2^32 floats and infinitely many integers; the places where the rounding through double matters, the denormalised numbers and the limit 2^128 - 2^103 are single points among them.", "anchors": ["src/BigInteger.cpp:BigInteger::operator float", "src/BigInteger.cpp:BigInteger::BigInteger(double)", "include/public/bigintegercpp/BigInteger.h:BigInteger(double value)"]}
{"id": "C95", "title": "BigInteger in place of int in Python formulas", "statement": "A Python formula of +, -, *, //, %, &, |, ^, unary minus, abs and ~ has the same value when some or all of its ints are replaced by BigIntegers of the same values (the result being a BigInteger exactly if the leftmost variable is one), and it raises an exception in the same cases. In particular this holds without // and %; in general it fails exactly where a division leaves a remainder and its operands have opposite signs, since BigInteger truncates and int rounds down.", "quantifier": "every formula of any depth, every assignment of BigIntegers and ints to its variables whose intermediate values are in range", "why_tests_cant": "The formulas are trees of unbounded depth, each operator's method depends on the types of its operands, and these on the operators below; a test checks a few operators on a few values.", "anchors": ["bindings/python/python-bindings.cpp:__floordiv__", "bindings/python/python-bindings.cpp:__rfloordiv__", "bindings/python/python-bindings.cpp:__mod__", "bindings/python/python-bindings.cpp:__radd__"]}
{"id": "C96", "title": "BigInteger in place of int in Python programs", "statement": "A Python program of assignments, if and while over such formulas, with conditions that are comparisons or truth values, does the same with BigIntegers for some or all of its ints: it ends after the same steps with the same values, raises an exception in the same cases, or goes on in the same cases. This holds as long as no division leaves a remainder with operands of opposite signs and no zero is taken for its truth value: every BigInteger counts as true, so `while x: x = x // m` never ends and square-and-multiply with `if e % 2:` gives a wrong power. In particular a program that counts the digits of x in base m with `while x > 0` ends with the right count, and Euclid's algorithm with `while b != 0` ends with the greatest common divisor up to the sign, for operands of any sign and type, square-and-multiply ends with the power, and Newton's iteration with the integer square root. No program whose values stay in range ends the process: its only exceptions are those of a zero divisor.", "quantifier": "every program, every number of steps, every assignment of BigIntegers and ints to its variables, values in range", "why_tests_cant": "The programs and the lengths of their runs are unbounded, and so is the digit-counting loop; that a loop never ends cannot be seen in a test at all.", "anchors": ["bindings/python/python-bindings.cpp:__floordiv__", "bindings/python/python-bindings.cpp:__lt__", "bindings/python/python-bindings.cpp:__radd__", "bindings/python/python-bindings.cpp:PYBIND11_MODULE"]}
