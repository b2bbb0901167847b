import Verif.Basic
/-
Independent specification vocabulary.  Property theorems are stated with these notions and the
model's API functions only.
-/
namespace BigIntegerCpp

/-- The two data members of `class BigInteger`
(include/public/bigintegercpp/BigInteger.h:187-188). -/
structure BigInt where
  sign : Int
  bits : List Nat
  deriving DecidableEq, Repr

/-- Little-endian value of a list of base-`b` digits. -/
def digitsVal (b : Nat) : List Nat → Nat
  | [] => 0
  | w :: ws => w + b * digitsVal b ws

/-- Value of a little-endian `uint32_t` array. -/
def val (ws : List Nat) : Nat := digitsVal 4294967296 ws

/-- Every element is a `uint32_t`. -/
def WordsOk (ws : List Nat) : Prop := ∀ w ∈ ws, w < 4294967296
/-- Every element is an `unsigned char`. -/
def BytesOk (ws : List Nat) : Prop := ∀ w ∈ ws, w < 256

instance (ws) : Decidable (WordsOk ws) := by unfold WordsOk; infer_instance
instance (ws) : Decidable (BytesOk ws) := by unfold BytesOk; infer_instance

/-- `z` is an `int`. -/
def IntRange (z : Int) : Prop := -2147483648 ≤ z ∧ z < 2147483648
/-- `z` is an `int64_t`/`long`. -/
def LongRange (z : Int) : Prop := -9223372036854775808 ≤ z ∧ z < 9223372036854775808
instance (z) : Decidable (IntRange z) := by unfold IntRange; infer_instance
instance (z) : Decidable (LongRange z) := by unfold LongRange; infer_instance

namespace BigInt

/-- The integer an object stands for: `_sign` itself when there are no words, otherwise
`_sign` times the little-endian value of the words. -/
def toInt (b : BigInt) : Int := if b.bits = [] then b.sign else b.sign * (val b.bits : Nat)

/-- The library's canonical form: the C++ types plus what `assert_valid`
(src/BigInteger.cpp:1395-1406) demands. -/
structure Valid (b : BigInt) : Prop where
  words : WordsOk b.bits
  signRange : IntRange b.sign
  small : b.bits = [] → b.sign ≠ -2147483648
  unit : b.bits ≠ [] → b.sign = 1 ∨ b.sign = -1
  topNonzero : b.bits.getLast? ≠ some 0
  notSmall : ∀ w, b.bits = [w] → 2147483648 ≤ w

/-- `b` is a well-formed object standing for the integer `z`. -/
def Denotes (b : BigInt) (z : Int) : Prop := b.Valid ∧ b.toInt = z

end BigInt

/-- Bit `k` of an integer in infinite two's complement (floor division). -/
def ibit (z : Int) (k : Nat) : Bool := decide ((z / (2 : Int) ^ k) % 2 = 1)

/-- Two's-complement value of a little-endian digit list with `n` bits per digit: the plain
value, minus `2^(n*length)` when the top bit of the top digit is set. -/
def signedVal (n : Nat) (ws : List Nat) : Int :=
  if 2 ^ (n - 1) ≤ ws.getLast?.getD 0 then (digitsVal (2 ^ n) ws : Nat) - (2 : Int) ^ (n * ws.length)
  else (digitsVal (2 ^ n) ws : Nat)

/-- The arguments on which `>>` goes wrong: a positive shift by whole words of a negative number
that lies strictly between `-2^(n+32L)` and `-(2^(n+32L) - 2^n)` for some `L ≥ 1`. -/
def ShiftMisfires (x : Int) (n : Nat) : Prop :=
  0 < n ∧ n % 32 = 0 ∧ ∃ L : Nat, 1 ≤ L ∧ -(2 : Int) ^ (n + 32 * L) < x ∧ x < -((2 : Int) ^ (n + 32 * L) - 2 ^ n)

/-! IEEE-754 binary64.  A `double` is its 64-bit pattern: sign bit, 11 exponent bits, 52 fraction
bits. -/
def dblSign (d : Nat) : Int := if d < 2 ^ 63 then 1 else -1
def dblExp (d : Nat) : Nat := d / 2 ^ 52 % 2 ^ 11
def dblFrac (d : Nat) : Nat := d % 2 ^ 52
/-- Neither an infinity nor a NaN. -/
def DblFinite (d : Nat) : Prop := dblExp d ≠ 2047
/-- The patterns of plus and minus infinity. -/
def dblInfinity (negative : Bool) : Nat := if negative then 4095 * 2 ^ 52 else 2047 * 2 ^ 52
/-- The value of a finite double times `2^1074` (an integer: `2^-1074` is the least positive
double).  Exponent field 0 means denormalised: value `frac * 2^-1074`; otherwise the value is
`(2^52 + frac) * 2^(exp - 1075)`. -/
def dblScaled (d : Nat) : Int :=
  dblSign d * ((if dblExp d = 0 then dblFrac d else (2 ^ 52 + dblFrac d) * 2 ^ (dblExp d - 1) : Nat) : Int)
/-- `m` with all but its `n` most significant bits cleared. -/
def keepBits (n m : Nat) : Nat := m / 2 ^ (Nat.log2 m + 1 - n) * 2 ^ (Nat.log2 m + 1 - n)

/-- What an array of bytes stands for: the unsigned or two's-complement value, in the given byte
order. -/
def bytesValue (isUnsigned isBigEndian : Bool) (bytes : List Nat) : Int :=
  let le := if isBigEndian then bytes.reverse else bytes
  if isUnsigned then (digitsVal 256 le : Nat) else signedVal 8 le

/-! Decimal text. -/
/-- The values whose text does not fit the buffer of `to_string`: those below the `int` range
(`INT_MIN` included) whose number of decimal digits is a multiple of nine. -/
def TextMisfires (x : Int) : Prop := x ≤ -2 ^ 31 ∧ 9 ∣ (Nat.toDigits 10 x.natAbs).length
instance (x : Int) : Decidable (TextMisfires x) := by unfold TextMisfires; infer_instance

/-- What a text stands for: an optional sign, then the longest run of decimal digits. -/
def textValue : List Char → Int
  | '-' :: cs => -(Nat.ofDigitChars 10 (cs.takeWhile Char.isDigit) 0 : Nat)
  | '+' :: cs => (Nat.ofDigitChars 10 (cs.takeWhile Char.isDigit) 0 : Nat)
  | cs => (Nat.ofDigitChars 10 (cs.takeWhile Char.isDigit) 0 : Nat)

/-- A well-formed number: an optional sign and at least one digit, nothing else. -/
def WellFormed (s : List Char) : Prop :=
  ∃ cs : List Char, (s = cs ∨ s = '-' :: cs ∨ s = '+' :: cs) ∧ cs ≠ [] ∧ ∀ c ∈ cs, c.isDigit

/-! Greatest common divisor. -/
/-- On operands `x ≥ y ≥ 2^64` the algorithm compares the leading bits only: `u`, the top 63 bits
of `x`, and `v`, the bits of `y` at the same places.  It takes one step of Euclid's algorithm when
`v = 0`, or the quotient `u / v` has more than 31 bits, or the remainder `u % v` is below it;
otherwise it takes a Lehmer step. -/
def EuclidStep (x y : Nat) : Prop :=
  let u := x / 2 ^ (Nat.log2 x - 62)
  let v := y / 2 ^ (Nat.log2 x - 62)
  v = 0 ∨ 2 ^ 31 ≤ u / v ∨ u % v < u / v

/-- The pairs on which no Lehmer step is taken before the smaller operand drops below `2^64`. -/
inductive EuclidOnly : Nat → Nat → Prop
  | small (x y : Nat) : y < 2 ^ 64 → EuclidOnly x y
  | step (x y : Nat) : 2 ^ 64 ≤ y → EuclidStep x y → EuclidOnly y (x % y) → EuclidOnly x y

/-- Size side condition of most theorems: fewer than `2^31 - 1` words, i.e. a magnitude below
`2^(32 * (2^31 - 2))` (8 GiB per number).  Above it the `int` word counters of the code overflow. -/
def BigInt.Fits (b : BigInt) : Prop := b.bits.length < 2147483647
instance (b : BigInt) : Decidable b.Fits := by unfold BigInt.Fits; infer_instance

/-- A C++ call returns normally with a well-formed object standing for `z`. -/
def Returns (r : Res BigInt) (z : Int) : Prop := ∃ b, r = .ok b ∧ b.Denotes z

end BigIntegerCpp
