import Verif.Model.DivRem
/-
Model of src/BigInteger.cpp: constructors, arithmetic, comparison, predicates.

An operator is a function from the operand values to the outcome.  In the code every assigning
operator computes its result completely before the single `*this = ...`, so the result does not
depend on whether the operands are the same object; `div_rem`, for which this is false, is
modelled on a store in Model/Program.lean as well.
-/
namespace BigIntegerCpp
variable [Cfg]

/-- `std::abs(int)`; undefined at `INT_MIN`. -/
def cabs (z : Int) : Res Nat := if z = -2147483648 then .ub .signedOverflow else .ok z.natAbs
/-- `~x` on `uint32_t` (`x < 2^32`). -/
def u32not (x : Nat) : Nat := 4294967295 - x

/-- Number of words left after dropping trailing zero words: the `while (len > 0 &&
value[len-1] == 0) len--` loops (BigInteger.cpp:114-117, 213-214, 259, 302, 335, 351-353 and
PowMod.cpp:61-65). -/
def trimLen : List Nat → Nat
  | [] => 0
  | x :: xs => let n := trimLen xs
    if n = 0 then (if x = 0 then 0 else 1) else n + 1

/-- NumericsHelpers.h:81-96 `dangerous_make_twos_complement`. -/
def twosComplement : List Nat → List Nat
  | [] => []
  | x :: xs =>
    let y := u32 (u32not x + 1)
    y :: (if y = 0 then twosComplement xs else xs.map u32not)

/-- BigInteger.cpp:1395-1406 `assert_valid`. -/
def assertValid (b : BigInt) : Res Unit :=
  if b.bits ≠ [] then do
    cassert (b.sign = 1 ∨ b.sign = -1)
    cassert (b.bits.length > 1 ∨ b.bits.headD 0 ≥ 2147483648)
    cassert (b.bits.getLast?.getD 0 ≠ 0)
  else cassert (b.sign > -2147483648)

/-- BigInteger.cpp:14 `s_bnMinInt`. -/
def minInt : BigInt := ⟨-1, [2147483648]⟩
/-- BigInteger.cpp:15 `s_bnOneInt`, 762 `one()`. -/
def oneInt : BigInt := ⟨1, []⟩
/-- BigInteger.cpp:16 `s_bnZeroInt`, 758 `zero()`, and the default constructor (20-23). -/
def zeroInt : BigInt := ⟨0, []⟩
/-- BigInteger.cpp:17 `s_bnMinusOneInt`, 766 `minus_one()`. -/
def minusOneInt : BigInt := ⟨-1, []⟩

/-- Run `assert_valid` on a constructed object and return it. -/
def checked (b : BigInt) : Res BigInt := do assertValid b; .ok b

/-- BigInteger.cpp:25-33 `BigInteger(int32_t)`. -/
def ofInt32 (value : Int) : Res BigInt :=
  if value = -2147483648 then checked minInt else checked ⟨value, []⟩

/-- BigInteger.cpp:35-44 `BigInteger(uint32_t)`. -/
def ofUInt32 (value : Nat) : Res BigInt :=
  if value ≤ 2147483647 then checked ⟨value, []⟩ else checked ⟨1, [value]⟩

/-- BigInteger.cpp:46-70 `BigInteger(int64_t)`; `-value` overflows at `INT64_MIN`. -/
def ofInt64 (value : Int) : Res BigInt :=
  if -2147483648 < value ∧ value ≤ 2147483647 then checked ⟨value, []⟩
  else if value = -2147483648 then checked minInt
  else do
    let (x, sign) ← if value < 0 then do
        let m ← long (-value)
        .ok (u64i m, (-1 : Int))
      else .ok (u64i value, 1)
    if x ≤ 4294967295 then checked ⟨sign, [u32 x]⟩
    else checked ⟨sign, [u32 x, u32 (x >>> 32)]⟩

/-- BigInteger.cpp:72-85 `BigInteger(uint64_t)`. -/
def ofUInt64 (value : Nat) : Res BigInt :=
  if value ≤ 2147483647 then checked ⟨value, []⟩
  else if value ≤ 4294967295 then checked ⟨1, [u32 value]⟩
  else checked ⟨1, [u32 value, u32 (value >>> 32)]⟩

/-- BigInteger.cpp:87-91 `BigInteger(int, uint_array)`. -/
def ofParts (n : Int) (value : List Nat) : Res BigInt := checked ⟨n, value⟩

/-- BigInteger.cpp:330-355 `BigInteger(uint_array, bool)`. -/
def ofMagnitude (value : List Nat) (negative : Bool) : Res BigInt := do
  let _ ← sizeInt value.length
  let len := trimLen value
  let b : BigInt :=
    if len = 0 then zeroInt
    else if len = 1 ∧ value.headD 0 < 2147483648 then
      let s : Int := if negative then -(i32 (value.headD 0)) else i32 (value.headD 0)
      if s = -2147483648 then minInt else ⟨s, []⟩
    else ⟨if negative then -1 else 1, value⟩
  checked ⟨b.sign, b.bits.take (trimLen b.bits)⟩

/-- BigInteger.cpp:254-327 private `BigInteger(uint_array)`: two's complement words. -/
def ofTwos (value : List Nat) : Res BigInt := do
  let _ ← sizeInt value.length
  let isNegative := value ≠ [] ∧ (value.getLast?.getD 0) &&& 0x80000000 = 0x80000000
  let dwordCount := trimLen value
  if dwordCount = 0 then checked zeroInt
  else if dwordCount = 1 then
    if i32 (value.headD 0) < 0 ∧ ¬isNegative then checked ⟨1, [value.headD 0]⟩
    else if i32 (value.headD 0) = -2147483648 then checked minInt
    else checked ⟨i32 (value.headD 0), []⟩
  else if ¬isNegative then
    if dwordCount ≠ value.length then checked ⟨1, value.take dwordCount⟩
    else checked ⟨1, value⟩
  else
    let value := twosComplement value
    let len := trimLen value
    if len = 1 ∧ i32 (value.headD 0) > 0 then
      if value.headD 0 = 1 then checked minusOneInt
      else if value.headD 0 = 2147483648 then checked minInt
      else checked ⟨-1 * i32 (value.headD 0), []⟩
    else if len ≠ value.length then checked ⟨-1, value.take len⟩
    else checked ⟨-1, value⟩

/-- BigInteger.cpp:402-431 `add(lhs, lhsSign, rhs, rhsSign)` (same-sign addition). -/
def addSigned (lhs : List Nat) (lhsSign : Int) (rhs : List Nat) (rhsSign : Int) : Res BigInt :=
  if lhs = [] ∧ rhs = [] then do
    let s ← long (lhsSign + rhsSign)
    ofInt64 s
  else if lhs = [] then do
    let a ← cabs lhsSign
    let bits ← addWord rhs a
    ofMagnitude bits (lhsSign < 0)
  else if rhs = [] then do
    let a ← cabs rhsSign
    let bits ← addWord lhs a
    ofMagnitude bits (lhsSign < 0)
  else if lhs.length < rhs.length then do
    let bits ← addVec rhs lhs
    ofMagnitude bits (lhsSign < 0)
  else do
    let bits ← addVec lhs rhs
    ofMagnitude bits (lhsSign < 0)

/-- BigInteger.cpp:433-462 `subtract(lhs, lhsSign, rhs, rhsSign)` (same-sign subtraction). -/
def subtractSigned (lhs : List Nat) (lhsSign : Int) (rhs : List Nat) (rhsSign : Int) : Res BigInt :=
  if lhs = [] ∧ rhs = [] then do
    let s ← long (lhsSign - rhsSign)
    ofInt64 s
  else if lhs = [] then do
    let a ← cabs lhsSign
    let bits ← subtractWord rhs a
    ofMagnitude bits (lhsSign ≥ 0)
  else if rhs = [] then do
    let a ← cabs rhsSign
    let bits ← subtractWord lhs a
    ofMagnitude bits (lhsSign < 0)
  else if compareWords lhs rhs < 0 then do
    let bits ← subtractVec rhs lhs
    ofMagnitude bits (lhsSign ≥ 0)
  else do
    let bits ← subtractVec lhs rhs
    ofMagnitude bits (lhsSign < 0)

namespace BigInt

/-- BigInteger.cpp:659-670 `operator+=`, 654-657 `operator+`, 393-396 `add`. -/
def add (a b : BigInt) : Res BigInt := do
  assertValid a
  assertValid b
  if decide (a.sign < 0) ≠ decide (b.sign < 0) then do
    let s ← int (-1 * b.sign)
    subtractSigned a.bits a.sign b.bits s
  else addSigned a.bits a.sign b.bits b.sign

/-- BigInteger.cpp:469-480 `operator-=`, 464-467 `operator-`, 398-400 `subtract`. -/
def sub (a b : BigInt) : Res BigInt := do
  assertValid a
  assertValid b
  if decide (a.sign < 0) ≠ decide (b.sign < 0) then do
    let s ← int (-1 * b.sign)
    addSigned a.bits a.sign b.bits s
  else subtractSigned a.bits a.sign b.bits b.sign

/-- `(a < 0) ^ (b < 0)` on signs. -/
def signXor (a b : BigInt) : Bool := decide (a.sign < 0) ^^ decide (b.sign < 0)

/-- BigInteger.cpp:487-531 `operator*=`, 482-485 `operator*`, 533-535 `multiply`. -/
def mul (a b : BigInt) : Res BigInt := do
  assertValid a
  assertValid b
  if a.bits = [] ∧ b.bits = [] then do
    let p ← long (a.sign * b.sign)
    ofInt64 p
  else if a.bits = [] then do
    let s ← cabs a.sign
    let bits ← multiplyWord b.bits s
    ofMagnitude bits (signXor a b)
  else if b.bits = [] then do
    let s ← cabs b.sign
    let bits ← multiplyWord a.bits s
    ofMagnitude bits (signXor a b)
  else if a.bits = b.bits then do
    let bits ← squareVec a.bits
    ofMagnitude bits (signXor a b)
  else if a.bits.length < b.bits.length then do
    let bits ← multiplyVec b.bits a.bits
    ofMagnitude bits (signXor a b)
  else do
    let bits ← multiplyVec a.bits b.bits
    ofMagnitude bits (signXor a b)

/-- BigInteger.cpp:542-580 `operator%=`, 537-540 `operator%`, 1617-1619 `remainder`.
`%` on `int` truncates towards zero (`Int.tmod`); `INT_MIN % -1` is excluded by `int`. -/
def rem (a b : BigInt) : Res BigInt := do
  assertValid a
  assertValid b
  if a.bits = [] ∧ b.bits = [] then
    if b.sign = 0 then .throw .divideByZero
    else do
      let _ ← int (a.sign.tdiv b.sign)
      ofInt32 (a.sign.tmod b.sign)
  else if a.bits = [] then .ok a
  else if b.bits = [] then do
    let s ← cabs b.sign
    let r ← remainderWord a.bits s
    ofInt64 (if a.sign < 0 then -1 * (r : Int) else r)
  else if a.bits.length < b.bits.length then .ok a
  else do
    let bits ← remainderVec a.bits b.bits
    ofMagnitude bits (a.sign < 0)

/-- BigInteger.cpp:677-717 `operator/=`, 672-675 `operator/`, 719-721 `divide`. -/
def div (a b : BigInt) : Res BigInt := do
  assertValid a
  assertValid b
  if a.bits = [] ∧ b.bits = [] then
    if b.sign = 0 then .throw .divideByZero
    else do
      let q ← int (a.sign.tdiv b.sign)
      ofInt64 q
  else if a.bits = [] then .ok zeroInt
  else if b.bits = [] then do
    let s ← cabs b.sign
    let bits ← divideWord a.bits s
    ofMagnitude bits (signXor a b)
  else if a.bits.length < b.bits.length then .ok zeroInt
  else do
    let bits ← divideVec a.bits b.bits
    ofMagnitude bits (signXor a b)

/-- BigInteger.cpp:582-624 `div_rem` when `remainder` is a third object: quotient and remainder.
Line 608: `-1 * rest` with `uint32_t rest` is unsigned arithmetic. -/
def divRem (a b : BigInt) : Res (BigInt × BigInt) := do
  assertValid a
  assertValid b
  if a.bits = [] ∧ b.bits = [] then
    if b.sign = 0 then .throw .divideByZero
    else do
      let q ← int (a.sign.tdiv b.sign)
      let r ← ofInt32 (a.sign.tmod b.sign)
      let q ← ofInt32 q
      .ok (q, r)
  else if a.bits = [] then .ok (zeroInt, a)
  else if b.bits = [] then do
    let s ← cabs b.sign
    let (bits, rest) ← divideWordRem a.bits s
    let r ← ofUInt32 (if a.sign < 0 then u32i (-1 * (rest : Int)) else rest)
    let q ← ofMagnitude bits (signXor a b)
    .ok (q, r)
  else if a.bits.length < b.bits.length then .ok (zeroInt, a)
  else do
    let (bits, rest) ← divideVecRem a.bits b.bits
    let r ← ofMagnitude rest (a.sign < 0)
    let q ← ofMagnitude bits (signXor a b)
    .ok (q, r)

/-- BigInteger.cpp:626-628 unary `operator-`, 1135-1137 `negate`. -/
def neg (a : BigInt) : Res BigInt := do
  let s ← int (-a.sign)
  ofParts s a.bits

/-- BigInteger.cpp:630-632 unary `operator+`. -/
def plus (a : BigInt) : Res BigInt := ofParts a.sign a.bits

/-- BigInteger.cpp:634-641 `operator++` (prefix and postfix): new value of the object. -/
def inc (a : BigInt) : Res BigInt := a.add oneInt
/-- BigInteger.cpp:643-651 `operator--` (prefix and postfix): new value of the object. -/
def dec (a : BigInt) : Res BigInt := a.sub oneInt

/-- BigInteger.cpp:639-641 postfix `operator++(int)`: (value of the object afterwards, value of
the returned expression).  The code returns a reference to the object. -/
def postInc (a : BigInt) : Res (BigInt × BigInt) := do
  let r ← a.inc
  .ok (r, r)
/-- BigInteger.cpp:649-651 postfix `operator--(int)`. -/
def postDec (a : BigInt) : Res (BigInt × BigInt) := do
  let r ← a.dec
  .ok (r, r)

/-- BigInteger.cpp:750-756 `get_diff_length`: one past the highest differing index, 0 if none. -/
def diffLength : List Nat → List Nat → Nat
  | x :: xs, y :: ys => let n := diffLength xs ys
    if n ≠ 0 then n + 1 else if x ≠ y then 1 else 0
  | _, _ => 0

/-- BigInteger.cpp:723-748 `compare_to`. -/
def compareTo (a b : BigInt) : Res Int := do
  assertValid a
  assertValid b
  if i32 (u32i a.sign ^^^ u32i b.sign) < 0 then .ok (if a.sign < 0 then -1 else 1)
  else if a.bits = [] then
    if b.bits = [] then .ok (if a.sign < b.sign then -1 else if a.sign > b.sign then 1 else 0)
    else int (-b.sign)
  else do
    let cuThis ← sizeInt a.bits.length
    let cuOther ← sizeInt b.bits.length
    if b.bits = [] ∨ cuThis > cuOther then .ok a.sign
    else if cuThis < cuOther then int (-a.sign)
    else
      let cuDiff := diffLength a.bits b.bits
      if cuDiff = 0 then .ok 0
      else do
        let x ← idx a.bits (cuDiff - 1)
        let y ← idx b.bits (cuDiff - 1)
        if x < y then int (-a.sign) else .ok a.sign

/-- BigInteger.cpp:779-796 `equals`, BigInteger.h:48 `operator==`. -/
def equals (a b : BigInt) : Res Bool := do
  assertValid a
  assertValid b
  if a.sign ≠ b.sign then .ok false
  else if a.bits = b.bits then .ok true
  else if a.bits = [] ∨ b.bits = [] then .ok false
  else if a.bits.length ≠ b.bits.length then .ok false
  else .ok (diffLength a.bits b.bits = 0)

/-- BigInteger.h:50 `operator!=`. -/
def ne (a b : BigInt) : Res Bool := do let r ← a.equals b; .ok !r
/-- BigInteger.h:40 `operator<`. -/
def lt (a b : BigInt) : Res Bool := do let c ← a.compareTo b; .ok (c < 0)
/-- BigInteger.h:42 `operator>`. -/
def gt (a b : BigInt) : Res Bool := b.lt a
/-- BigInteger.h:44 `operator<=`. -/
def le (a b : BigInt) : Res Bool := do let r ← a.gt b; .ok !r
/-- BigInteger.h:46 `operator>=`. -/
def ge (a b : BigInt) : Res Bool := do let r ← a.lt b; .ok !r

/-- BigInteger.cpp:1143-1147 `Max`. -/
def max (a b : BigInt) : Res BigInt := do
  let c ← a.compareTo b
  .ok (if c < 0 then b else a)
/-- BigInteger.cpp:1149-1153 `Min`. -/
def min (a b : BigInt) : Res BigInt := do
  let c ← a.compareTo b
  .ok (if c ≤ 0 then a else b)

/-- BigInteger.cpp:770-773 `sign()`; `>>` on `int` is arithmetic. -/
def signum (a : BigInt) : Res Int := do
  assertValid a
  let n ← int (-a.sign)
  int (a.sign / 2147483648 - n / 2147483648)

/-- BigInteger.cpp:1689-1691 `abs`. -/
def abs (a : BigInt) : Res BigInt := do
  let g ← a.ge zeroInt
  if g then .ok a else a.neg

/-- BigInteger.cpp:1684-1687 `operator~`. -/
def compl (a : BigInt) : Res BigInt := do
  let r ← a.add oneInt
  r.neg

/-- BigInteger.cpp:378-381 `is_zero`. -/
def isZero (a : BigInt) : Res Bool := do assertValid a; .ok (a.sign = 0)
/-- BigInteger.cpp:383-386 `is_one`. -/
def isOne (a : BigInt) : Res Bool := do assertValid a; .ok (a.sign = 1 ∧ a.bits.length = 0)
/-- BigInteger.cpp:388-391 `is_even`. -/
def isEven (a : BigInt) : Res Bool := do
  assertValid a
  .ok (if a.bits.length = 0 then u32i a.sign &&& 1 = 0 else a.bits.headD 0 &&& 1 = 0)

/-- BigInteger.cpp:357-376 `is_power_of_two`; `iu` runs below the top word. -/
def isPowerOfTwo (a : BigInt) : Res Bool := do
  assertValid a
  if a.bits.length = 0 then do
    let s ← int (a.sign - 1)
    .ok (u32i a.sign &&& u32i s = 0 ∧ a.sign ≠ 0)
  else if a.sign ≠ 1 then .ok false
  else
    let top := a.bits.getLast?.getD 0
    if top &&& u32sub top 1 ≠ 0 then .ok false
    else .ok (a.bits.dropLast.all (· = 0))

/-- NumericsHelpers.h:126-132 `combine_hash` (both overloads). -/
def combineHash (n1 n2 : Int) : Int :=
  let u1 := u32i n1
  i32 ((u32 (u1 <<< 7) ||| (u1 >>> 25)) ^^^ u32i n2)

/-- BigInteger.cpp:1772-1779 `get_hash_code`: most significant word first. -/
def hashCode (a : BigInt) : Int :=
  if a.bits = [] then a.sign
  else a.bits.foldr (fun w h => combineHash h (i32 w)) a.sign

end BigInt
end BigIntegerCpp
