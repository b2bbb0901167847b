import Verif.Model.Core
/-
Model of src/BigInteger.cpp and include/NumericsHelpers.h: conversions to and from built-in
types.  A `double` is its 64-bit IEEE pattern (a natural number below 2^64).
-/
namespace BigIntegerCpp
variable [Cfg]

namespace BigInt

/-- BigInteger.cpp:1408-1425 `operator int`. -/
def toInt32 (a : BigInt) : Res Int :=
  if a.bits = [] then .ok a.sign
  else if a.bits.length > 1 then .throw .overflowError
  else
    let w := a.bits.headD 0
    if a.sign > 0 then
      if w > 2147483647 then .throw .overflowError else .ok (i32 w)
    else if w > 2147483648 then .throw .overflowError
    else int (-(i32 w))

/-- BigInteger.cpp:1427-1438 `operator unsigned int`. -/
def toUInt32 (a : BigInt) : Res Nat :=
  if a.bits = [] then
    if a.sign < 0 then .throw .overflowError else .ok (u32i a.sign)
  else if a.bits.length > 1 ∨ a.sign < 0 then .throw .overflowError
  else .ok (a.bits.headD 0)

/-- BigInteger.cpp:1448-1453, 1474-1477: one or two words as `unsigned long`. -/
def twoWords (bits : List Nat) : Res Nat :=
  if bits.length > 1 then do
    let h ← idx bits 1
    let l ← idx bits 0
    .ok (u64 (h <<< 32) ||| l)
  else idx bits 0

/-- BigInteger.cpp:1440-1459 `operator long`. -/
def toLong (a : BigInt) : Res Int :=
  if a.bits = [] then .ok a.sign
  else do
    let len ← sizeInt a.bits.length
    if len > 2 then .throw .overflowError else do
    let uu ← twoWords a.bits
    let ll ← (if a.sign > 0 then .ok (i64 uu) else long (-(i64 uu)))
    if (ll > 0 ∧ a.sign > 0) ∨ (ll < 0 ∧ a.sign < 0) then .ok ll else .throw .overflowError

/-- BigInteger.cpp:1461-1478 `operator unsigned long`. -/
def toULong (a : BigInt) : Res Nat :=
  if a.bits = [] then
    if a.sign < 0 then .throw .overflowError else .ok (u64i a.sign)
  else do
    let len ← sizeInt a.bits.length
    if len > 2 ∨ a.sign < 0 then .throw .overflowError else twoWords a.bits

end BigInt

/-- NumericsHelpers.h:15-39 `cbit_high_zero(unsigned)`: the same code as
`BigIntegerCalculator::leading_zeros` (DivRem.cpp:273-299). -/
def cbitHighZero32 (u : Nat) : Nat := leadingZeros u

/-- NumericsHelpers.h:9-13 `cbit_high_zero(uint64_t)`. -/
def cbitHighZero64 (uu : Nat) : Nat :=
  if uu &&& 0xFFFFFFFF00000000 = 0 then 32 + cbitHighZero32 (u32 uu)
  else cbitHighZero32 (u32 (uu >>> 32))

/-- NumericsHelpers.h:48-79 `get_double_from_parts`; the result is the pattern `du.uu`. -/
def doubleFromParts (sign exp : Int) (man : Nat) : Res Nat := do
  let uu ← (if man = 0 then .ok 0
    else do
      let cbitShift : Int := (cbitHighZero64 man : Int) - 11
      let man := if cbitShift < 0 then man >>> (-cbitShift).toNat else u64 (man <<< cbitShift.toNat)
      let exp ← int (exp - cbitShift)
      let exp ← int (exp + 1075)
      if exp ≥ 0x7FF then .ok 0x7FF0000000000000
      else if exp ≤ 0 then do
        let exp ← int (exp - 1)
        if exp < -52 then .ok 0 else .ok (man >>> (-exp).toNat)
      else .ok ((man &&& 0x000FFFFFFFFFFFFF) ||| u64 (exp.toNat <<< 52)))
  .ok (if sign < 0 then uu ||| 0x8000000000000000 else uu)

/-- NumericsHelpers.h:102-124 `get_double_parts`: (sign, exp, man, fFinite). -/
def doubleParts (d : Nat) : Int × Int × Nat × Bool :=
  let sign : Int := 1 - ((d >>> 62) &&& 2 : Nat)
  let man := d &&& 0x000FFFFFFFFFFFFF
  let exp : Int := ((d >>> 52) &&& 0x7FF : Nat)
  if exp = 0 then (sign, if man ≠ 0 then -1074 else exp, man, true)
  else if exp = 0x7FF then (sign, -1, man, false)
  else (sign, exp - 1075, man ||| 0x0010000000000000, true)

/-- BigInteger.cpp:1757-1760 `double_IsFinite`.  The pointer cast that reads the pattern is taken
to work. -/
def doubleIsFinite (d : Nat) : Bool := decide (d &&& 0x7FFFFFFFFFFFFFFF < 0x7FF0000000000000)
/-- BigInteger.cpp:1762-1765 `double_IsNaN`. -/
def doubleIsNaN (d : Nat) : Bool := decide (d &&& 0x7FFFFFFFFFFFFFFF > 0x7FF0000000000000)
/-- BigInteger.cpp:1767-1770 `double_IsInfinity`. -/
def doubleIsInfinity (d : Nat) : Bool := decide (d &&& 0x7FFFFFFFFFFFFFFF = 0x7FF0000000000000)

/-- BigInteger.cpp:1693-1755 `BigInteger(double)`. -/
def ofDouble (d : Nat) : Res BigInt :=
  if ¬ doubleIsFinite d then .throw .overflowError
  else
    let (sign, exp, man, _) := doubleParts d
    do
    cassert (sign = 1 ∨ sign = -1)
    if man = 0 then .ok zeroInt else do
    cassert (man < 9007199254740992)
    cassert (exp ≤ 0 ∨ man ≥ 4503599627370496)
    if exp ≤ 0 then
      if exp ≤ -64 then .ok zeroInt
      else do
        let b ← ofUInt64 (man >>> (-exp).toNat)
        let s ← (if sign < 0 then int (-b.sign) else .ok b.sign)
        checked ⟨s, b.bits⟩
    else if exp ≤ 11 then do
      let b ← ofUInt64 (u64 (man <<< exp.toNat))
      let s ← (if sign < 0 then int (-b.sign) else .ok b.sign)
      checked ⟨s, b.bits⟩
    else do
      let man := u64 (man <<< 11)
      let exp := exp - 11
      let cu := ((exp - 1) / 32 + 1).toNat
      let cbit : Int := (cu : Int) * 32 - exp
      cassert (0 ≤ cbit ∧ cbit < 32)
      cassert (cu ≥ 1)
      let cbit := cbit.toNat
      let bits := List.replicate (cu + 2) 0
      let bits ← put bits (cu + 1) (u32 (man >>> (cbit + 32)))
      let bits ← put bits cu (u32 (man >>> cbit))
      let bits ← (if cbit > 0 then put bits (cu - 1) (u32 (u32 man <<< (32 - cbit))) else .ok bits)
      checked ⟨sign, bits⟩

/-- The built-in conversion `int` to `double` (BigInteger.cpp:1482 `return _sign;`): exact.  The
pattern is computed by the model of `get_double_from_parts`; `C35` proves that it decodes to the
number itself. -/
def intToDouble (z : Int) : Res Nat := doubleFromParts z 0 z.natAbs

/-- BigInteger.cpp:1480-1504 `operator double`. -/
def BigInt.toDouble (a : BigInt) : Res Nat :=
  if a.bits = [] then intToDouble a.sign
  else do
    let length ← sizeInt a.bits.length
    if length > 32 then
      .ok (if a.sign = 1 then 0x7FF0000000000000 else 0xFFF0000000000000)
    else do
      let h ← idx a.bits (length - 1)
      let m ← (if length > 1 then idx a.bits (length - 2) else .ok 0)
      let l ← (if length > 2 then idx a.bits (length - 3) else .ok 0)
      let z := cbitHighZero32 h
      if z ≥ 32 then .ub .badShift else do
      let exp ← int (((length : Int) - 2) * 32 - z)
      let man := u64 (h <<< (32 + z)) ||| u64 (m <<< z) ||| (l >>> (32 - z))
      doubleFromParts a.sign exp man

end BigIntegerCpp
