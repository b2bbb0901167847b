# Formal model of CityOfZion/BigIntegerCpp in Lean 4

## 1. Layout

| place | content |
|-------|---------|
| `properties.jsonl` | the properties, in English |
| `lean/Verif/Basic.lean` | outcomes (`Res`), machine integers, array access |
| `lean/Verif/Model/*.lean` | the model: one Lean definition per C++ function, each citing the lines it models |
| `lean/Verif/Spec.lean`, `*Spec.lean` | the independent specifications |
| `lean/Verif/Lemmas/*.lean` | helper lemmas |
| `lean/Verif/Props/*.lean` | the property theorems `Cnn_…`, with an `example` beside each that meets its hypotheses |
| `lean/Verif/Vectors.lean` | the repository's test vectors, evaluated on the model |
| `MANIFEST.json` | property → theorems, status |
| `seeded/LOG.jsonl` | wrong programs tried against the theorems |

## 2. How C++ is represented

* A `uint_array` is a `List Nat`, least significant word first; words are below 2^32 by the C++
  type (`WordsOk`).  Unsigned arithmetic is truncated explicitly (`u32`, `u64`, `u32sub`, …).
* `int` and `long` are `Int` with an explicit range check; leaving the range is the outcome
  `ub .signedOverflow`.  `long` has 64 bits (LP64: Linux and macOS, not Windows), except in
  `Model/Long32*.lean` (C86, C93), where it has 32 and a shift of it by 32 is `ub .badShift`.
* A function that can fail returns `Res α`:
  `ok`, `throw` (a C++ exception, by class), `abort` (a failed `assert`),
  `ub` (undefined behaviour, by kind: out of bounds, signed overflow, division by zero, null
  dereference, shift of a negative number, a size that does not fit `int`),
  `diverge` (a loop used up the bound `fuel` it was given; "for all `fuel`, `diverge`" means that it
  hangs).  Loops that terminate by their own counters are structural or well-founded recursion
  without a bound.  The loops with a bound are the main loop of gcd, the subtraction loop of
  `FastReducer::SubMod` (its bound is proved sufficient) and the `while` of the program language.
* The class `Cfg` has two flags: `ndebug` (asserts compiled out) and `strictShift` (C++17's text,
  where `(-1) << 8` is undefined, against GCC, Clang and C++20, where it is -256).  Theorems hold for
  both values of both flags unless a hypothesis says otherwise.
* A pointer with a length is the list of that range; taking a range goes through `slice`, which is
  `ub .outOfBounds` if the range leaves the array.  Every `v[i]` goes through `idx`/`put` likewise.
  `Model/Memory.lean` and `Model/Pointer.lean` do without this for the pointer routines of AddSub,
  SquMul and DivRem: a pointer is a block and an offset into one memory, ranges may overlap, loops
  run over indices, local arrays are allocated and released.  C57 proves these equal to the list
  functions (`C57_…_model`), so the list view is a theorem there.  `Model/PointerBuf.lean` does the
  same for the buffers, the reducer, powers and the greatest common divisor of several words (C82).
* Costs (C64-C66, C69, C70, C80, C81, C84) are counted in `Model/Cost.lean`, `Model/CostText.lean`, `Model/CostPow.lean`, `Model/CostBits.lean` and `Model/CostGcd.lean`, a copy of the routines in a monad that carries the
  outcome, the number of steps (loop iterations, and words of arrays filled or copied), the nesting of
  recursive calls and the number of temporary words alive.  Comparisons that stop early are charged in
  full, those inside an `assert` also when asserts are compiled out.  Time per step, the allocator and
  stack frames are not modelled.  Passing the left operand of `a + b` by value is not counted.
* A `double` is its 64-bit IEEE pattern, a `float` its 32-bit pattern; only in the part on
  logarithms is a `double` a real number, an infinity or NaN.
* An assigning operator is a function from operand values to a result: in the source each computes
  its result before the single assignment to `*this`.  What aliasing does is the subject of
  `Model/Program.lean`, where operators act on a store of objects.

## 3. What is modelled

All of `src/BigInteger.cpp` and `src/BigIntegerCalculator/*.cpp`, the inline parts of the headers
they use, and the methods of the class in `bindings/python/python-bindings.cpp`:

| model | C++ |
|-------|-----|
| `AddSub`, `SquMul`, `DivRem` | the files of the same name (schoolbook and Karatsuba multiplication and squaring with their thresholds, long division) |
| `Memory`, `Pointer` | the routines of AddSub, SquMul and DivRem on `uint32_t*` again, over a memory of blocks |
| `PointerBuf` | BitsBuffer, FastReducer, and the routines of PowMod and GcdInv on several words again, over the same memory: buffers are blocks, copies are made and go away |
| `Cost` | the routines behind `+ - * / %` again, counting steps, nesting of calls and temporary words |
| `CostText`, `CostPow`, `CostBits`, `CostGcd` | `to_string`, `parse`, `pow`, `mod_pow`, shifts, bitwise operators, comparisons, queries, byte conversions and `greatest_common_divisor` again, with the same counts |
| `UserPrograms` | programs a user might write with the operators (no counterpart in the repository) |
| `Core` | constructors, canonical form, `+ - * / %`, `div_rem`, comparison, hash, `++ --`, predicates |
| `Static` | the constructors again, with the static constants as variables |
| `Accessors` | `get_bits`, `sign_internal`, `Compare`, constants |
| `Bits` | shifts, `& \| ^ ~`, `to_uint32_array`, `get_bit_length` |
| `Bytes` | byte constructor, `to_byte_array` (both overloads), `get_byte_count` |
| `Text` | `to_string`, `parse`, `try_parse` |
| `Convert`, `Float` | `operator int/unsigned/long/unsigned long/double/float`, `BigInteger(double)`, `NumericsHelpers.h` |
| `Pow` | `BitsBuffer.cpp`, `FastReducer.cpp`, `PowMod.cpp`, `pow`, `mod_pow` |
| `Gcd` | `GcdInv.cpp`, `greatest_common_divisor` (both overloads) |
| `Log` | `log`, `log10`, `csharp_log_wrapper` |
| `Expr` | nested operator expressions |
| `Exhaustion` | the programs of `Program` again, with requests for memory that may be refused (`std::bad_alloc`) |
| `Threads` | several programs of `Program` at once, access by access to the members of shared objects |
| `Oracle` | tests/MyBigInt.cpp and tests/BitArray.cpp, the byte-array implementation the unit tests compare with, and the dispatch of tests/stack_calc.cpp to it and to the library |
| `Calculator` | the calculator of tests/stack_calc.cpp and the loops of the tests that run it |
| `RandomTests` | tests/Random.h and .cpp over any engine, the functions that make random arrays, the tests of tests/gcd.cpp, and those of divrem.cpp and modpow.cpp with random operands |
| `StackMachine` | a stack machine with integers of at most 32 bytes, built on the library by a user (no counterpart in the repository) |
| `Chains` | sequences of conversions out of the library and back (user code, no counterpart in the repository) |
| `FloatBack` | a `float` as argument of the constructor; `BigInteger((float) a)` |
| `Buffers` | sequences of calls of the methods of `BitsBuffer`, among them `Overwrite(uint32_t)`, which the library never calls |
| `Long32`, `Long32Pow`, `Long32Gcd`, `Long32Python` | the functions of all files in which a `long`, `unsigned long` or `L` literal occurs, again, with a `long` of 32 bits; the Python operators that call them |
| `Overloads` | the constructors, conversion functions and operators that BigInteger.h declares, and which of them C++17 calls in an expression with built-in numbers |
| `Program` | sequences, branches, loops and try/catch over named objects with aliasing; move and swap |
| `Containers` | algorithms that ask for comparisons and hashes; sorting, ordered and hashed sets, in C++ and Python (no counterpart in the repository) |
| `PythonDispatch` | the Python class as CPython and pybind11 see it: which method and overload is called for objects of any type, which exception is raised, `sum`, `in`, `max`, `min` |
| `PythonFormula`, `PythonProgram` | Python formulas and programs with `if` and `while`: CPython's own operators between `int`s, the bindings' otherwise (the programs have no counterpart in the repository) |
| `Python`, `PythonOrder`, `PythonObject`, `PythonQuery` | integer conversion (both byte orders), operators and their reflected forms, comparison, `divmod`, `pow`, hash, buffers, `bytes`, `to_array`, unary methods, predicates, logarithms |

Not modelled:

* Version strings.
* Memory: allocation never fails (except in C71) and `std::vector` is a list.  Sizes are bounded only by the `int`
  counters of the code; the bounds appear as hypotheses (`Fits`: fewer than 2^31 - 1 words).
* The order of initialisation of the static constants: they are taken as initialised, except in C60,
  which models the constructors with the constants as variables.
* Which overload or implicit conversion the C++ compiler picks, except in C76 (operators with built-in
  numbers).
* Threads, except in C73 (programs of `Program`).  No function has static mutable state.
* Of the tests: the logarithms of MyBigInt.cpp, `ApproximateBigInteger`, the engine of the random generator
  (any engine is allowed), the test cases other than those of `Model/RandomTests.lean`.

Simplifications, also stated at the definitions: loops over indices are recursion over lists where
the index only walks the array (for AddSub, SquMul and DivRem proved equal to the loops over
indices, C57; for BigInteger.cpp, the byte and text conversions, `actual_length` and the loop of
`lehmer_core`, C68: `Model/Loops.lean`); `std::fill`/`std::copy` are list operations (loops of stores in `Model/PointerBuf.lean`, C82); a
moved-from `std::vector` is empty (true of libstdc++ and libc++); the text buffer of
`to_string` is a list written from the end (proved equal to the buffer with its write position, C68); CPython's `_PyLong_AsByteArray`,
`_PyLong_FromByteArray` and `_PyLong_NumBits` are given by their documented behaviour.

## 4. Specification

`Spec.lean` knows nothing of the algorithms: `val` (value of little-endian words), `BigInt.toInt`,
`BigInt.Valid` (canonical form), `Denotes b z` (canonical object of value `z`), `Returns r z` (normal
return of a canonical object of value `z`), `ibit` (bit of an integer in infinite two's complement),
`signedVal`, `bytesValue`, `textValue`, the IEEE functions `dbl…`, `keepBits`.  Integer operations are
Lean's own (`+`, `*`, `Int.tdiv`, `Int.tmod`, `/` = floor for positive divisors, `Int.gcd`, `^`).
Three predicates describe where the code is wrong: `ShiftMisfires`, `TextMisfires`,
`EuclidStep`/`EuclidOnly`.

`ProgramSpec.lean`: the integer semantics of programs.  `PythonSpec.lean`,
`PythonObjectSpec.lean`: Python's operators on integers and buffers.  `LogSpec.lean`: accuracy assumed
of the floating-point unit.  `ClosureSpec.lean`: objects obtainable through the public interface.
`GcdSpec.lean`: how Euclid's algorithm meets a Lehmer step.  `GcdActualSpec.lean`: what
`greatest_common_divisor` really does.  `FloatSpec.lean`: IEEE binary32 and
"nearest".  `ActualSpec.lean`: what a program really does, faults included.  `ExprSpec.lean`: integer
value of an expression.  `MemorySpec.lean`: numbers in memory, disjoint ranges, memories equal
outside a range.  `ExhaustionSpec.lean`: which statements can be interrupted half done.
`CalculatorSpec.lean`: the number read from the text of an array, which numbers have a text.
`OverloadsSpec.lean`: the integral part of a number, what an operator computes.
`PythonDispatchSpec.lean`: the value of a Python object, what an outcome gives.
`PythonFormulaSpec.lean`: the value of a formula on `int`s and with `BigInteger`s, which divisions round differently.
`PythonProgramSpec.lean`: what a program does on `int`s, step by step, and which programs are safe with `BigInteger`s.
`ContainersSpec.lean`: an algorithm on integers.
`SizesSpec.lean`: bit length of a result, powers of two.  `ThreadsSpec.lean`: which objects a program
names and assigns to, data races.

## 5. Properties

"proved": the statement as given, for all inputs, up to the size limits of the `int` counters.
"partial": the theorem has a hypothesis that the English statement has not; its name ends in
`_partial`, and wherever the code violates the statement there is a theorem that says so.

| id | how it is proved |
|----|------------------|
| C01 | case analysis; `INT64_MIN` undefined |
| C02 | uniqueness of canonical words by induction; `Made` (every public call) preserves `Valid`, by induction over chains of calls; `BigInteger(int, uint_array)` in a release build: exactly the canonical pairs |
| C03 | induction over words from the top |
| C04, C47 | from C02; Python's hash against `hash(int)`: refuted for every value in 0..2^55-1 (and, in C79, for all values between -2^55 and 2^55) |
| C05, C06, C50 | carry-loop invariants; C50 exact for all signs |
| C07, C08 | case analysis, C05, C06 |
| C09 | strong induction on the length through Karatsuba |
| C10–C12 | invariant of long division: partial remainder below the divisor; the guessed digit is right or one too large |
| C02, C13, C14, C16, C17, C25, C26, C29, C30, C32–C34, C44, C45, C49, C51–C53, C59, C60, C76 | `…_exact_iff`, mostly in Props/Exact.lean and Props/ExactRest.lean: for each, the exact set of arguments on which it holds |
| C13, C14 | exact description of `div_rem`, also with aliased arguments |
| C15 | buffer invariant: words beyond the length are zero, scratch buffer zero |
| C16–C18 | as C15 with reduction; Barrett's estimate for the fast reducer |
| C19, C20, C51 | Euclid steps by induction; the Lehmer step never makes progress on operands of equal length: no bound suffices; elsewhere the exact number of iterations, at most twice the bits of the smaller number |
| C21–C23 | decomposition of 2^n into words and bits; `C22_exact_iff`, `C23_exact_iff`: a right shift is correct exactly if it does not misfire and a negative operand has fewer than 2^26 words (beyond that an `int` overflows) |
| C24, C42 | bits of two's-complement word lists |
| C25–C29, C52 | regrouping of bytes into words; minimality by bounds of `signedVal`; strided buffers: exactly those whose elements equal the consecutive bytes (two's complement is injective at a fixed length) |
| C30–C33 | invariant of the base-10^9 conversion |
| C34–C36, C48, C49 | arithmetic on mantissa and exponent; rounding of `double` to `float` by nearest-point argument |
| C37, C38 | the De Bruijn table checked on all 32 smeared words, lifted to all words |
| C39 | from C03, C05, C09 and C02 |
| C40, C41 | simulation of the object program by the integer program, induction on runs; `C40_actual`, `C40_complete`: the real behaviour of all statements, in both directions; independence of `Cfg` |
| C55 | C37, C38, C46 through the integer conversion of C44; `get_bit_Length` differs from `int.bit_length` on -2^k only |
| C56 | induction on the expression |
| C57 | refinement of the list functions by the memory routines, loop by loop; strong induction through Karatsuba with its overlapping pointers |
| C58 | case analysis on the canonical form; moved-from objects are in the inductive `Made` of C02 |
| C59 | an outcome predicate pushed through every function of the model, with no size limit; loops by induction on what decreases (`sub_mod`, `pow`, the Lehmer guess, `to_string`); `gcd` only where it ends |
| C61 | from C08; refuted for every object |
| C62 | both roundings are monotone: the result is the largest/nearest point below a bound that grows with the value |
| C63 | from C09, C11, C16; Fermat's theorem from Mathlib; from C18 for the refutation |
| C64, C65, C66 | outcomes of the counting routines equal those of the model, routine by routine; bounds by induction, through Karatsuba on the exponent of the size; the guessed digit is at most two too large for a normalised divisor |
| C67 | total correctness rules for statements over integers (invariant and measure), transported to objects by C40 |
| C68 | second model with the loops of the code over indices, an access outside an array is `.ub .outOfBounds`; equal to the first model for all inputs; no such access, except `to_string` on `TextMisfires` (`C68_refuted`) |
| C69 | counting copy of `to_string` and `parse`; upper bounds from the lengths of the intermediate numbers, lower bounds from their values |
| C70 | counting copy of `pow` and `mod_pow`; the lengths in the buffers grow by at most a factor of two per squaring, so the squares of the lengths sum to a multiple of `N²`; from below one `Apply` per bit of the exponent.  For moduli of 32 words or more see C84 |
| C71 | programs with a sequence of answers to the requests for memory; an evaluation without lasting writes asks once, copy assignment writes `_sign` first and then asks; simulation of the runs of `Program`, invariant for canonical form, and for each statement the set of stores it can fail in.  False of assignment from a named object, `\|=`, postfix `++`/`--` and `div_rem` |
| C72 | bit length of operands and results, over the models of C05-C11, C15, C21-C24, C28, C30, C37, C42; the width of an integer under each operation, from `-2^n ≤ x < 2^n` |
| C73 | statements as sequences of accesses to `_sign` and `_bits` (`Model/Threads.lean`), threads with a stack of continuations, arbitrary schedules; a footprint invariant (a thread accesses only what its program names), simulation of a thread in a pool by the thread alone, and of the thread alone by the big-step semantics of C40 in both directions.  Accesses are indivisible and sequentially consistent, which C++ guarantees without races |
| C74 | every function of MyBigInt.cpp and BitArray.cpp except the logarithms, as functions on byte lists (`Model/Oracle.lean`); each shown to compute the integer operation on the two's complement values (long division by a loop invariant on the shifted divisor, multiplication and powers on the bits of the second operand, gcd by the Euclidean measure); then compared object by object with the theorems about the library |
| C75 | `print`, the splitting into tokens, `DoNextOperation`, `DoConstruction` and the loop of the `Verify…String` functions of the tests (`Model/Calculator.lean`); the text of an array is followed token by token to the object it makes, then each operation through both stacks to the comparison of the two texts; the texts are equal exactly when the integers are (C30), and C74 says when those are |
| C76 | overload resolution of C++17 (ranks of conversions, viable functions, best function, built-in candidates) written as a computable function on the declarations of BigInteger.h (`Model/Overloads.lean`); which function an expression calls is then evaluated on the complete table of types, what it returns is proved for all values from C01, C08–C13, C22–C24 |
| C77 | the rules of CPython for finding a method and of pybind11 for choosing an overload and translating an exception, with the list of names the class binds (`Model/PythonDispatch.lean`); case analysis on the kinds of object, C44, C45, C16 for the values, induction over lists |
| C78 | the whole call as a run on natural numbers (`GcdActualSpec.lean`), refinement by an invariant that also tracks the words left over above each number; the claims follow from the run; bound by the decrease of the two bit lengths, or a repeated state; concrete runs for what fails |
| C79 | an algorithm is a tree that branches on the answers of comparisons and hashes; induction on the tree, with the hash of the canonical object as a function of the integer (C02); sets and sorting by induction on the list, on integers |
| C80 | counting copies of the routines, with the same outcomes; one linear bound per loop, added up along each routine |
| C81 | counting copy of the routines; the words in use are a potential that pays for the divisions, the rest of an iteration is linear; the number of iterations from C20, the guessing halves its number in every round |
| C82 | simulation of the list functions by the routines on blocks, step by step through the power loops, the reducer and the Lehmer loop; frame conditions (which blocks keep their words, which are new) carried along; values from C16, C18, C19 |
| C83 | loose invariant of the loops: buffers of 2K words with any contents, lengths at most K; products over arbitrary words by induction over the recursion, with carry bounds; the reducer depends only on the words below the length and returns the length of a remainder (Barrett); converse by the value 2^(32L) - 1 (C18) |
| C84 | the counting copy of `mod_pow` extended by the reducer; Barrett's inequality leaves less than three times the modulus, so the loop is entered with a bound of three; lengths from the loose invariant of C83 bound both multiplications; from below one `Apply` and one copy of the buffer per bit |
| C85 | the reducer changes lengths only, never words, and neither school rows nor Karatsuba's corrections carry into the lowest word: a divisor of 2^32 that divides the lowest word of the base (and of the scratch buffer) divides that of every product; with Fermat's little theorem (Mathlib) and C63 below 2^992 |
| C86 | the functions in which a `long`, `unsigned long` or `L` literal occurs written again with a 32-bit `long` (`Model/Long32.lean`); every subtraction of words shifts a `long` by 32; addition of a word keeps its first carry only, so the sum of the words determines what is lost; multiplication by strong induction on the Karatsuba recursion, which subtracts at 32 words; `parse` compared with the digits digit by digit; `pow` by induction on the bits of the exponent with the pair of factors that first exceeds 992 bits (`Model/Long32Pow.lean`); `greatest_common_divisor` by induction on Euclid's steps up to the first Lehmer step, which is undefined (`Model/Long32Gcd.lean`) |
| C87 | the generator is a value, so a function with a parameter `Random random` returns the caller's state as it was; each test is run over an arbitrary engine and evaluates to a list of texts with verdicts; verdicts from C75 with C19 (equal operands, or one below 2^64), C13 and C16 |
| C88 | lockstep simulation of the machine on objects by the machine on integers (`StackMachineSpec.lean`); every instruction by the theorem of the operation it calls, the 32-byte limit by C72; widths keep the intermediate results in range |
| C89 | induction over the sequence of forms; every form by the theorem of its round trip (C26, C27, C32, C34, C35, C44), with canonical form making objects of one value equal; cutting to 53 bits is idempotent and monotone |
| C90 | invariant of the buffers (`BuffersSpec.lean`: digits and length of a number, scratch buffer zero), kept by every call that does not trip; a call that trips leaves the top word of the old number in place; a buffer reduced by itself in memory: the only digit is 1, every word is subtracted from itself |
| C91 | the bytes of an integer in a given length and order are unique; the big-endian path hands them reversed to the constructor, so it is right exactly for palindromes |
| C92 | the integer part of `m * 2^e` composes with further right shifts, so normal and denormalised results are both `keepBits 53` of the integer part of `man * 2^(exp+1074)`; values are compared as rationals; the rotation by 7 bits and xor are injective |
| C93 | the operators of `Python` over the functions of `Long32` (`Model/Long32Python.lean`); which operands are safe and which lose a carry is stated on integers (`Long32PythonSpec.lean`); each operator reduced to the C86 theorem of the function it calls, reflected forms by symmetry of the sets |
| C94 | the promotion of `float` keeps the value (fields compared, denormalised floats normalised); the integers that are floats are those of at most 24 bits below `2^128`; the float chosen is no farther from the value cut to 53 bits than the value cut to 24 bits is |
| C95 | formulas of any depth over `BigInteger`s and `int`s (`Model/PythonFormula.lean`): CPython's own operators between two `int`s, the bindings' otherwise; structural induction over C77 and C53; floored and truncated division compared, the former stated with the floor of a rational |
| C96 | programs of assignments, `if` and `while` over the formulas of C95, with a step count on both sides (`Model/PythonProgram.lean`); simulation by induction on the steps; the actual course of every program with the types of its objects likewise; the outcome does not depend on the step count, so the same holds without it; digit counting, Euclid's algorithm, square-and-multiply and Newton's square root by induction on the number |
| C60 | the constants as variables, zero-filled at first; constructors compared branch by branch |
| C43, C54 | trimming lemma; canonical form |
| C44, C45, C53 | composition of the above with the byte conversion of CPython |
| C46 | case analysis for special values; real analysis for the error bound |

## 6. Where the code and the property disagree

Each of these is a theorem with a concrete witness (name in brackets), found by reading the code and
confirmed in the model.

1. `BigInteger(int64_t)` at `INT64_MIN` negates it: undefined [`C01_int64_min_is_undefined`].
2. The public `BigInteger(int, uint_array)` accepts non-canonical words in a release build
   [`C02_parts_unchecked_fails`].
3. `div_rem` of a large negative dividend by an `int`-sized divisor stores a remainder 2^32 too large
   [`C13_wrong_remainder`].
4. `div_rem` with `remainder` aliasing an operand reads the operand after overwriting it; can divide
   by zero unchecked [`C14_refuted`, `C14_over_dividend`, `C14_over_divisor`].
5. `mod_pow` with an `int`-sized modulus adds 2^32 to a negative result [`C16_wrong_sign`].
6. `mod_pow` with modulus zero and a multi-word exponent divides by zero unchecked [`C17_unchecked`].
7. `mod_pow` with a modulus of 32 words or more: the reducer works on copies, so nothing is reduced;
   wrong results, or a scratch buffer is overrun [`C18_unreduced`, `C18_square`, `C18_overrun`]; the
   overrun happens exactly for powers of 2^32 [`C83_safe_iff`]; a debug build can fail an assertion [`C83_debug_abort`];
   powers of even numbers are always even, so Fermat's test rejects every large prime [`C85_fermat`].
8. `greatest_common_divisor` with both operands of three words or more: hangs, aborts or is wrong
   [`C20_never_returns`, `C20_never_returns_after`, `C20_close`, `C20_fibonacci`, `C20_aborts`, `C19_wrong`, `C19_low_word_replaced`, `C19_wrong_every_size`].
   Words left over from earlier steps become part of the answer, so it can exceed both operands
   [`C78_too_large`]; a release build can read before an array [`C78_reads_before_array`].  What every call does: `C78_actual`.
9. `>>` by whole words of certain negative numbers gives 0 [`C22_misfire`].
10. The byte constructor shifts a negative `int`: undefined in strict C++17 [`C25_strict_shift`].
11. `to_byte_array(mode)` writes through its null default pointer [`C29_null_pointer`].
12. `to_string` writes the minus sign in front of its buffer for certain digit counts [`C30_misfire`].
13. `try_parse` reports success always [`C33_always_true`, `C33_never_false`].
14. `operator int` at -2^31 and `operator long` at -2^63 negate the least value: undefined
    [`C34_int_min_is_undefined`, `C34_long_min_is_undefined`].
15. Python's hash of a `BigInteger` differs from that of the equal `int` [`C47_never`].
16. Python's `divmod` inherits 3, its reflected form also 12 [`C45_divmod_refuted`].
17. `operator float` rounds twice and may miss the nearest float [`C49_refuted`].
18. The public word-level `add`, `subtract` ignore the second sign [`C50_refuted`].
19. The Python constructor from a buffer ignores strides; a reversed view is read out of bounds
    [`C52_refuted`, `C52_reversed`].
20. A global `BigInteger` with value -2^31 constructed before the library's constants is 0
    [`C60_early_min`, `C60_early_bytes_refuted`].
21. Postfix `++`/`--` return the updated object, never the old value [`C61_never`, `C61_program`].
22. With an odd modulus of `2^992` or more even `x^2 = x * x` fails in modular powers, so do the other
    laws used in cryptography [`C63_every_large_odd`].
23. Assignment `a = b` between named objects assigns the sign before it copies the words; if that copy
    runs out of memory, `a` is left with the sign of `b`: `5` becomes `-1`.  `|=` with a zero left
    operand, `z = x++` and `div_rem` have the same fault [`C71_refuted`, `C71_exact_iff`].
24. The conversion functions that the header calls explicit casts are not `explicit`, and not `const`.  So
    `int n = x;` compiles, and throws if `x` is too large; `x + 5` does not compile unless `x` is
    `const`; `-x` does not compile if it is [`C76_convert_compiles`, `C76_variable_with_number`, `C76_unary_compiles`].
25. Shift counts and exponents that are no `int` are reduced modulo 2^32 without warning
    [`C76_shift_count_wraps`, `C76_exponent_wraps`].  A `double` compared with a `const` object loses its
    fraction, so `x == 2.5` holds for 2 [`C76_compare_value`].
26. Python: `BigInteger(0)` counts as true [`C77_always_true`]; `==` raises `TypeError` for objects that are not
    numbers, because the methods lack `py::is_operator()` [`C77_compare_other`]; division by zero raises `RuntimeError`
    [`C77_binary`], a negative exponent `IndexError` [`C77_exponent`]; `pow(x, 3, 5)` raises `TypeError`
    [`C77_pow3_type_error`]; `sum` of BigIntegers is an `int` [`C77_sum`].  The three tests for the TypeErrors
    of `pow` in test_python_bindings.py call a lambda without its argument and so pass in any case.
27. Where `long` has 32 bits (Windows) the library is unusable for numbers beyond an `int`: every difference of two of
    one sign is undefined, `(2^64 - 1) + 1` is 0 and `parse("18446744073709551616")` is 0 [`C86_sub_undefined`, `C86_add_wrong`,
    `C86_parse_two_64`]; products of two numbers of 32 words and `operator double` are undefined [`C86_multiply`,
    `C86_to_double`]; `BigInteger(0.1)` throws, `BigInteger(infinity)` is 0 [`C86_of_double`, `C86_of_infinity`];
    `mod_pow` with a modulus of 32 words and `greatest_common_divisor` after its first Lehmer step are undefined
    [`C86_mod_pow_large`, `C86_gcd`].  In Python `BigInteger(2**31) - 1` is undefined and `BigInteger(2**64 - 1) + 1` is 0 [`C93_refuted`].
28. The tests pass their generator by value, so every call makes the same array: all ten samples are equal, and "two large
    BigIntegers" are always the same number twice.  `^` is checked on large operands as `x ^ x`, `/` as `x / x`, the greatest
    common divisor as `gcd(x, x)`, and an identity of gcd.cpp compares a text with itself [`C87_same_array`, `C87_two_large`, `C87_gcd_test`].
29. A virtual machine built on the library computes `(1 - 2^64) >> 32` as 0 and `(-3)^3 mod 10` as `2^32 - 7`, and the
    count `-2^31` of a shift is undefined before it can be refused [`C88_refuted`, `C88_exact_iff`].
30. `parse(a.to_string())`, `BigInteger((int32_t) a)` and `BigInteger((int64_t) a)` are undefined for some values that the form
    holds, so no sequence of conversions is safe that has one of them [`C89_undefined_iff`, `C89_refuted`].
31. `BitsBuffer::Overwrite` and `Refresh` pass the arguments of .NET's `Array.Clear` (first index, count) to `std::fill` (end, value), so
    they fill low words with 1, 2 or the length instead of clearing high ones [`C90_step_exact_iff`, `C90_refresh_wrong`, `C90_refuted`].
32. `to_biginteger(n, true)` of the Python bindings (which no caller uses) reads the big-endian bytes as little-endian
    ones [`C91_exact_iff`, `C91_refuted`].
33. `//` and `%` of the Python class truncate where those of `int` round down, so `BigInteger` is no drop-in replacement:
    `BigInteger(-42) // 5` is -8, `-42 // 5` is -9.  As `m + a` of an `int` and a `BigInteger` is an `int`, `(a + m) // n` truncates and
    `(m + a) // n` floors; `/` gives a truncated `BigInteger` where that of `int` gives a `float` [`C45_binary`, `C95_operator_exact_iff`, `C95_refuted`, `C95_order_matters`].
34. Every `BigInteger` counts as true, so `while x: x = x // m` never ends [`C96_halving_never_ends`]; for an `int` it does [`C96_halving_ints`].  Likewise square-and-multiply with `if e % 2:` gives `b ** (2 ** k - 1)` for an exponent of `k` binary digits [`C96_power_by_truth`].

## 7. Trusted base

* Lean 4.33.0's kernel.  Axioms used: `propext`, `Classical.choice`, `Quot.sound`, nothing else; no
  `sorry`, no `native_decide`, no `bv_decide`.  Where a finite fact is evaluated, it is by `decide`
  (with `+kernel` in places), which the kernel checks.
* Mathlib (parts imported module by module) is checked by the same kernel.
* That `Model/*.lean` says what the cited C++ lines do, and that `Spec*.lean` says what the English
  properties say.  Nothing was compiled or run from the repository; the correspondence is by reading.
  `Vectors.lean` evaluates the model on the literal vectors of the repository's own tests (except
  `INT64_MIN`, undefined in the model, and numbers of 100 digits and more); a check of the model, no proof.
* For C44–C47, C52, C53, C77, C79, C95, C96: the description of CPython's and pybind11's behaviour.  For C46: `Fpu.Accurate`,
  the assumed accuracy of the floating-point unit.  For C49: the cast from `double` to `float`
  is IEEE round-to-nearest-even.
* For C76: that `Model/Overloads.lean` says what C++17 says about overload resolution.  Its table was
  compared with Clang's answers on a class of the same declarations written for the purpose, and agrees.  GCC
  accepts a few expressions more (`x % 2.5`, `2.0 << x`, with `x` not `const`), and then calls the library's
  function too.

## 8. Testing the theorems

`seeded/LOG.jsonl` records edits of the model in the manner of realistic bugs, the claim each breaks,
which theorems no longer prove, and which theorems were tightened as a result.
