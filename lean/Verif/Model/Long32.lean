import Verif.Model.Text
import Verif.Model.Convert
import Verif.Model.Bits
/-
The library compiled where `long` has 32 bits: Windows, 32-bit and 64-bit (setup.py:35-38, 60-64 have branches for
it), and 32-bit Unix.  Everything else in Model/ takes `long` to have 64 bits.

Only the functions in which a `long`, an `unsigned long` or a literal with suffix `L` or `UL` has a part are written
again here, and the functions that call them; the others (division, shifts, bitwise operators, comparison, byte and
text output, the other constructors) do not mention the type and are as in the other files.  Of the callers, `pow` and
`mod_pow` are in Model/Long32Pow.lean, `greatest_common_divisor` is in Model/Long32Gcd.lean; the Python bindings are left out.

`uint32_t` is `unsigned int`; an operand of that type meeting a `long` of 32 bits makes both `unsigned long`, so the
sum wraps at `2^32`; storing it in a `long` takes it modulo `2^32`.  A shift of a 32-bit number by 32 is undefined.
-/
namespace BigIntegerCpp.Long32
variable [Cfg]

/-- An `unsigned long` of 32 bits holding `z` modulo `2^32`, stored in a `long`. -/
def toLong32 (z : Int) : Int := i32 (u32i z)

/-- `x >> n` on a `long` of 32 bits. -/
def shr (x : Int) (n : Nat) : Res Int := if n < 32 then .ok (x / (2 ^ n : Nat)) else .ub .badShift

/-- `x << n` on an `unsigned long` of 32 bits. -/
def shl (x : Nat) (n : Nat) : Res Nat := if n < 32 then .ok (u32 (x <<< n)) else .ub .badShift

/-- `x >> n` on an `unsigned long` of 32 bits. -/
def ushr (x : Nat) (n : Nat) : Res Nat := if n < 32 then .ok (x >>> n) else .ub .badShift

/-- A signed operation on `long`. -/
def long32 (z : Int) : Res Int := int z

/-- AddSub.cpp:18-22 with `digit` a `long long` and `carry` a `long`: the sum `lhs[i] + carry` is an `unsigned long`,
so it wraps before it is stored; the shift is of the `long long`. -/
def addWordLoop : List Nat → Int → List Nat × Int
  | [], c => ([], c)
  | x :: xs, c =>
    let digit : Int := u32i ((x : Int) + c)
    let (r, c') := addWordLoop xs (toLong32 (digit / 4294967296))
    (u32i digit :: r, c')

/-- AddSub.cpp:4-26 `add(const uint_array&, uint32_t)`: `digit` is a `long long`, the first sum does not wrap. -/
def addWord (lhs : List Nat) (rhs : Nat) : Res (List Nat) := do
  cassert (lhs ≠ [])
  match lhs with
  | [] => .ub .outOfBounds
  | x :: xs => do
    let digit : Int := (x : Int) + rhs
    let (r, c) := addWordLoop xs (toLong32 (digit / 4294967296))
    .ok (u32i digit :: r ++ [u32i c])

/-- AddSub.cpp:82-86, 106-110, 150-154, 168-172 and SquMul.cpp:338-342: `long digit = x[i] + carry; carry = digit >> 32`;
`stop` for the loops that end when the carry is zero. -/
def carryLoop (stop : Bool) : List Nat → Int → Res (List Nat × Int)
  | [], c => .ok ([], c)
  | x :: xs, c =>
    if stop ∧ c = 0 then .ok (x :: xs, 0) else do
      let digit := toLong32 ((x : Int) + c)
      let c ← shr digit 32
      let (r, c') ← carryLoop stop xs c
      .ok (u32i digit :: r, c')

/-- AddSub.cpp:77-86. -/
def addSelfLoop : List Nat → List Nat → Int → Res (List Nat × Int)
  | xs, [], c => carryLoop true xs c
  | [], _ :: _, _ => .ub .outOfBounds
  | x :: xs, y :: ys, c => do
    let digit := toLong32 ((x : Int) + c + y)
    let c ← shr digit 32
    let (r, c') ← addSelfLoop xs ys c
    .ok (u32i digit :: r, c')

/-- AddSub.cpp:65-89 `add_self`. -/
def addSelf (lhs rhs : List Nat) : Res (List Nat) := do
  cassert (lhs.length ≥ rhs.length)
  let (r, c) ← addSelfLoop lhs rhs 0
  cassert (c = 0)
  .ok r

/-- AddSub.cpp:91-113 `subtract(const uint_array&, uint32_t)`. -/
def subtractWord (lhs : List Nat) (rhs : Nat) : Res (List Nat) := do
  cassert (lhs ≠ [])
  cassert (lhs.headD 0 ≥ rhs ∨ lhs.length ≥ 2)
  match lhs with
  | [] => .ub .outOfBounds
  | x :: xs => do
    let digit := toLong32 ((x : Int) - rhs)
    let c ← shr digit 32
    let (r, _) ← carryLoop false xs c
    .ok (u32i digit :: r)

/-- AddSub.cpp:145-154. -/
def subtractLoop : List Nat → List Nat → Int → Res (List Nat × Int)
  | xs, [], c => carryLoop false xs c
  | [], _ :: _, _ => .ub .outOfBounds
  | x :: xs, y :: ys, c => do
    let digit := toLong32 ((x : Int) + c - y)
    let c ← shr digit 32
    let (r, c') ← subtractLoop xs ys c
    .ok (u32i digit :: r, c')

/-- AddSub.cpp:128-157 `subtract(const uint32_t*, int, const uint32_t*, int, uint32_t*, int)`. -/
def subtractPtr (lhs rhs : List Nat) (bitsLength : Nat) : Res (List Nat) := do
  cassert (lhs.length ≥ rhs.length)
  cassert (compareWords lhs rhs ≥ 0)
  cassert (bitsLength = lhs.length)
  let (r, c) ← subtractLoop lhs rhs 0
  cassert (c = 0)
  .ok r

/-- AddSub.cpp:115-126 `subtract(const uint_array&, const uint_array&)`. -/
def subtractVec (lhs rhs : List Nat) : Res (List Nat) := do
  cassert (lhs ≠ [])
  cassert (rhs ≠ [])
  cassert (lhs.length ≥ rhs.length)
  cassert (compareWords lhs rhs ≥ 0)
  let _ ← sizeInt lhs.length
  subtractPtr lhs rhs lhs.length

/-- SquMul.cpp:326-342, the loops of `subtract_core`. -/
def subtractCoreLoop : (core lhs rhs : List Nat) → Int → Res (List Nat × Int)
  | core, [], [], c => carryLoop true core c
  | _, [], _ :: _, _ => .ub .outOfBounds
  | [], _ :: _, _, _ => .ub .outOfBounds
  | x :: xs, l :: ls, [], c => do
    let digit := toLong32 ((x : Int) + c - l)
    let c ← shr digit 32
    let (r, c') ← subtractCoreLoop xs ls [] c
    .ok (u32i digit :: r, c')
  | x :: xs, l :: ls, y :: ys, c => do
    let digit := toLong32 ((x : Int) + c - l - y)
    let c ← shr digit 32
    let (r, c') ← subtractCoreLoop xs ls ys c
    .ok (u32i digit :: r, c')

/-- SquMul.cpp:307-343 `subtract_core`. -/
def subtractCore (lhs rhs core : List Nat) : Res (List Nat) := do
  cassert (lhs.length ≥ rhs.length)
  cassert (core.length ≥ lhs.length)
  let (r, _) ← subtractCoreLoop core lhs rhs 0
  .ok r

/-- SquMul.cpp:171-305 `multiply(uint32_t*, int, uint32_t*, int, uint32_t*, int)`; the rows of the school method are
computed in `uint64_t` (196-202). -/
def mulCore (left right bits : List Nat) (rightLength : Nat) : Res (List Nat) := do
  cassert (left.length ≥ rightLength)
  cassert (bits.length = left.length + rightLength)
  if _h : rightLength < MultiplyThreshold then mulSchool left right bits
  else do
    let n := rightLength / 2
    let n2 := n * 2
    let leftLow ← slice left 0 n
    let leftHigh ← slice left n (left.length - n)
    let rightLow ← slice right 0 n
    let rightHigh ← slice right n (rightLength - n)
    let bitsLow ← slice bits 0 n2
    let bitsHigh ← slice bits n2 (bits.length - n2)
    let bitsLow ← mulCore leftLow rightLow bitsLow n
    let bitsHigh ← mulCore leftHigh rightHigh bitsHigh (rightLength - n)
    let leftFold ← addPtr leftHigh leftLow (leftHigh.length + 1)
    let rightFold ← addPtr rightHigh rightLow (rightLength - n + 1)
    let core ← mulCore leftFold rightFold
      (List.replicate (leftFold.length + (rightLength - n + 1)) 0) (rightLength - n + 1)
    let core ← subtractCore bitsHigh bitsLow core
    let all := bitsLow ++ bitsHigh
    let upper ← slice all n (all.length - n)
    let upper ← addSelf upper core
    .ok (all.take n ++ upper)
termination_by rightLength
decreasing_by all_goals (simp only [MultiplyThreshold] at _h; omega)

/-- SquMul.cpp:156-169 `multiply(uint_array, uint_array)`. -/
def multiplyVec (lhs rhs : List Nat) : Res (List Nat) := do
  cassert (lhs ≠ [])
  cassert (rhs ≠ [])
  cassert (lhs.length ≥ rhs.length)
  let _ ← sizeInt (lhs.length + rhs.length)
  mulCore lhs rhs (List.replicate (lhs.length + rhs.length) 0) rhs.length

/-- SquMul.cpp:16-131 `square(uint32_t*, int, uint32_t*, int)`. -/
def sqCore (value bits : List Nat) (valueLength : Nat) : Res (List Nat) := do
  cassert (bits.length = valueLength + valueLength)
  if _h : valueLength < SquareThreshold then sqSchool [] value bits
  else do
    let n := valueLength / 2
    let n2 := n * 2
    let valueLow ← slice value 0 n
    let valueHigh ← slice value n (valueLength - n)
    let bitsLow ← slice bits 0 n2
    let bitsHigh ← slice bits n2 (bits.length - n2)
    let bitsLow ← sqCore valueLow bitsLow n
    let bitsHigh ← sqCore valueHigh bitsHigh (valueLength - n)
    let fold ← addPtr valueHigh valueLow (valueLength - n + 1)
    let core ← sqCore fold (List.replicate ((valueLength - n + 1) + (valueLength - n + 1)) 0)
      (valueLength - n + 1)
    let core ← subtractCore bitsHigh bitsLow core
    let all := bitsLow ++ bitsHigh
    let upper ← slice all n (all.length - n)
    let upper ← addSelf upper core
    .ok (all.take n ++ upper)
termination_by valueLength
decreasing_by all_goals (simp only [SquareThreshold] at _h; omega)

/-- SquMul.cpp:4-14 `square(uint_array&)`. -/
def squareVec (value : List Nat) : Res (List Nat) := do
  cassert (value ≠ [])
  let _ ← sizeInt (value.length * 2)
  sqCore value (List.replicate (value.length * 2) 0) value.length

/-- BigInteger.cpp:402-431 `add(lhs, lhsSign, rhs, rhsSign)`; the sum of two `int`s is an `int64_t`. -/
def addSigned (lhs : List Nat) (lhsSign : Int) (rhs : List Nat) (rhsSign : Int) : Res BigInt :=
  if lhs = [] ∧ rhs = [] then do
    let s ← long (lhsSign + rhsSign)
    ofInt64 s
  else if lhs = [] then do
    let a ← cabs lhsSign
    let bits ← addWord rhs a
    ofMagnitude bits (lhsSign < 0)
  else if rhs = [] then do
    let a ← cabs rhsSign
    let bits ← addWord lhs a
    ofMagnitude bits (lhsSign < 0)
  else if lhs.length < rhs.length then do
    let bits ← addVec rhs lhs
    ofMagnitude bits (lhsSign < 0)
  else do
    let bits ← addVec lhs rhs
    ofMagnitude bits (lhsSign < 0)

/-- BigInteger.cpp:433-462 `subtract(lhs, lhsSign, rhs, rhsSign)`. -/
def subtractSigned (lhs : List Nat) (lhsSign : Int) (rhs : List Nat) (rhsSign : Int) : Res BigInt :=
  if lhs = [] ∧ rhs = [] then do
    let s ← long (lhsSign - rhsSign)
    ofInt64 s
  else if lhs = [] then do
    let a ← cabs lhsSign
    let bits ← subtractWord rhs a
    ofMagnitude bits (lhsSign ≥ 0)
  else if rhs = [] then do
    let a ← cabs rhsSign
    let bits ← subtractWord lhs a
    ofMagnitude bits (lhsSign < 0)
  else if compareWords lhs rhs < 0 then do
    let bits ← subtractVec rhs lhs
    ofMagnitude bits (lhsSign ≥ 0)
  else do
    let bits ← subtractVec lhs rhs
    ofMagnitude bits (lhsSign < 0)

/-- BigInteger.cpp:659-670 `operator+=`, 654-657 `operator+`, 393-396 `add`. -/
def add (a b : BigInt) : Res BigInt := do
  assertValid a
  assertValid b
  if decide (a.sign < 0) ≠ decide (b.sign < 0) then do
    let s ← int (-1 * b.sign)
    subtractSigned a.bits a.sign b.bits s
  else addSigned a.bits a.sign b.bits b.sign

/-- BigInteger.cpp:469-480 `operator-=`, 464-467 `operator-`, 398-400 `subtract`. -/
def sub (a b : BigInt) : Res BigInt := do
  assertValid a
  assertValid b
  if decide (a.sign < 0) ≠ decide (b.sign < 0) then do
    let s ← int (-1 * b.sign)
    addSigned a.bits a.sign b.bits s
  else subtractSigned a.bits a.sign b.bits b.sign

/-- BigInteger.cpp:487-531 `operator*=`, 482-485 `operator*`, 533-535 `multiply`. -/
def mul (a b : BigInt) : Res BigInt := do
  assertValid a
  assertValid b
  if a.bits = [] ∧ b.bits = [] then do
    let p ← long (a.sign * b.sign)
    ofInt64 p
  else if a.bits = [] then do
    let s ← cabs a.sign
    let bits ← multiplyWord b.bits s
    ofMagnitude bits (a.signXor b)
  else if b.bits = [] then do
    let s ← cabs b.sign
    let bits ← multiplyWord a.bits s
    ofMagnitude bits (a.signXor b)
  else if a.bits = b.bits then do
    let bits ← squareVec a.bits
    ofMagnitude bits (a.signXor b)
  else if a.bits.length < b.bits.length then do
    let bits ← multiplyVec b.bits a.bits
    ofMagnitude bits (a.signXor b)
  else do
    let bits ← multiplyVec a.bits b.bits
    ofMagnitude bits (a.signXor b)

/-- BigInteger.cpp:634-641 `operator++`: new value of the object. -/
def inc (a : BigInt) : Res BigInt := add a oneInt
/-- BigInteger.cpp:643-651 `operator--`: new value of the object. -/
def dec (a : BigInt) : Res BigInt := sub a oneInt

/-- BigInteger.cpp:1684-1687 `operator~`. -/
def compl (a : BigInt) : Res BigInt := do
  let r ← add a oneInt
  r.neg

/-- BigInteger.cpp:818-826: the digit loop of `parse`. -/
def parseLoop : List Char → BigInt → Res BigInt
  | [], b => .ok b
  | ch :: cs, b =>
    if '0' ≤ ch ∧ ch ≤ '9' then do
      let ten ← ofInt32 10
      let b ← mul b ten
      let d ← ofUInt32 (ch.toNat - 48)
      let b ← add b d
      parseLoop cs b
    else .ok b

/-- BigInteger.cpp:807-831 `parse`. -/
def parse (s : List Char) : Res BigInt :=
  match s with
  | '-' :: cs => do
    let b ← parseLoop cs zeroInt
    b.neg
  | '+' :: cs => parseLoop cs zeroInt
  | cs => parseLoop cs zeroInt

/-- BigInteger.cpp:1448-1453, 1474-1477: one or two words as `unsigned long`. -/
def twoWords (bits : List Nat) : Res Nat :=
  if bits.length > 1 then do
    let h ← idx bits 1
    let h ← shl h 32
    let l ← idx bits 0
    .ok (h ||| l)
  else idx bits 0

/-- BigInteger.cpp:1440-1459 `operator long`. -/
def toLong (a : BigInt) : Res Int :=
  if a.bits = [] then .ok a.sign
  else do
    let len ← sizeInt a.bits.length
    if len > 2 then .throw .overflowError else do
    let uu ← twoWords a.bits
    let ll ← (if a.sign > 0 then .ok (i32 uu) else long32 (-(i32 uu)))
    if (ll > 0 ∧ a.sign > 0) ∨ (ll < 0 ∧ a.sign < 0) then .ok ll else .throw .overflowError

/-- BigInteger.cpp:1461-1478 `operator unsigned long`. -/
def toULong (a : BigInt) : Res Nat :=
  if a.bits = [] then
    if a.sign < 0 then .throw .overflowError else .ok (u32i a.sign)
  else do
    let len ← sizeInt a.bits.length
    if len > 2 ∨ a.sign < 0 then .throw .overflowError else twoWords a.bits

/-- BigInteger.cpp:1480-1504 `operator double`; `h`, `m`, `l` and `man` are `unsigned long`s. -/
def toDouble (a : BigInt) : Res Nat :=
  if a.bits = [] then intToDouble a.sign
  else do
    let length ← sizeInt a.bits.length
    if length > 32 then
      .ok (if a.sign = 1 then 0x7FF0000000000000 else 0xFFF0000000000000)
    else do
      let h ← idx a.bits (length - 1)
      let m ← (if length > 1 then idx a.bits (length - 2) else .ok 0)
      let l ← (if length > 2 then idx a.bits (length - 3) else .ok 0)
      let z := cbitHighZero32 h
      let exp ← int (((length : Int) - 2) * 32 - z)
      let h ← shl h (32 + z)
      let m ← shl m z
      let l ← ushr l (32 - z)
      doubleFromParts a.sign exp (h ||| m ||| l)

/-- `*((long*) &value)` on a little-endian machine: the lower half of the pattern, as a signed number. -/
def longOfDouble (d : Nat) : Int := i32 (u32 d)

/-- BigInteger.cpp:1757-1760 `double_IsFinite`: the `long` is extended to the type of the literal, 64 bits. -/
def doubleIsFinite (d : Nat) : Bool := decide (u64i (longOfDouble d) &&& 0x7FFFFFFFFFFFFFFF < 0x7FF0000000000000)
/-- BigInteger.cpp:1762-1765 `double_IsNaN`. -/
def doubleIsNaN (d : Nat) : Bool := decide (u64i (longOfDouble d) &&& 0x7FFFFFFFFFFFFFFF > 0x7FF0000000000000)
/-- BigInteger.cpp:1767-1770 `double_IsInfinity`. -/
def doubleIsInfinity (d : Nat) : Bool := decide (u64i (longOfDouble d) &&& 0x7FFFFFFFFFFFFFFF = 0x7FF0000000000000)

/-- BigInteger.cpp:1717-1718: `1UL << 53` and `1UL << 52`, evaluated in a debug build only. -/
def manAsserts : Res Unit := if Cfg.ndebug then .ok () else .ub .badShift

/-- BigInteger.cpp:1693-1755 `BigInteger(double)`. -/
def ofDouble (d : Nat) : Res BigInt :=
  if ¬ doubleIsFinite d then .throw .overflowError
  else
    let (sign, exp, man, _) := doubleParts d
    do
    cassert (sign = 1 ∨ sign = -1)
    if man = 0 then .ok zeroInt else do
    manAsserts
    if exp ≤ 0 then
      if exp ≤ -64 then .ok zeroInt
      else do
        let b ← ofUInt64 (man >>> (-exp).toNat)
        let s ← (if sign < 0 then int (-b.sign) else .ok b.sign)
        checked ⟨s, b.bits⟩
    else if exp ≤ 11 then do
      let b ← ofUInt64 (u64 (man <<< exp.toNat))
      let s ← (if sign < 0 then int (-b.sign) else .ok b.sign)
      checked ⟨s, b.bits⟩
    else do
      let man := u64 (man <<< 11)
      let exp := exp - 11
      let cu := ((exp - 1) / 32 + 1).toNat
      let cbit : Int := (cu : Int) * 32 - exp
      cassert (0 ≤ cbit ∧ cbit < 32)
      cassert (cu ≥ 1)
      let cbit := cbit.toNat
      let bits := List.replicate (cu + 2) 0
      let bits ← put bits (cu + 1) (u32 (man >>> (cbit + 32)))
      let bits ← put bits cu (u32 (man >>> cbit))
      let bits ← (if cbit > 0 then put bits (cu - 1) (u32 (u32 man <<< (32 - cbit))) else .ok bits)
      checked ⟨sign, bits⟩

/-- BigInteger.cpp:1213-1250 `get_bit_length`: `bitsArrayLength * 32L - ...` is a `long`. -/
def bitLength (a : BigInt) : Res Nat := do
  assertValid a
  let (len, high) ← (if a.bits = [] then
      if a.sign < 0 then do
        let m ← int (-a.sign)
        .ok (1, u32i m)
      else .ok (1, u32i a.sign)
    else do
      let n ← sizeInt a.bits.length
      let w ← idx a.bits (n - 1)
      .ok (n, w))
  let lz ← BigInt.leadingZerosCount high
  let p ← long32 ((len : Int) * 32)
  let bitLength ← long32 (p - lz)
  if a.sign ≥ 0 then .ok (u64i bitLength)
  else if high &&& u32sub high 1 ≠ 0 then .ok (u64i bitLength)
  else if a.bits.dropLast.all (· = 0) then .ok (u64i (bitLength - 1))
  else .ok (u64i bitLength)

end BigIntegerCpp.Long32
