import Verif.Model.Core
/-
Model of the small accessors of /repo/src/BigInteger.cpp.
-/
namespace BigIntegerCpp.BigInt
variable [Cfg]

/-- BigInteger.h:162 `sign_internal()`. -/
def signInternal (a : BigInt) : Int := a.sign
/-- BigInteger.cpp:775-777 `get_bits()`. -/
def getBits (a : BigInt) : List Nat := a.bits
/-- BigInteger.cpp:1139-1141 `Compare(lhs, rhs)`. -/
def compareFn (a b : BigInt) : Res Int := a.compareTo b
/-- BigInteger.cpp:758-760 `zero()`: the constructor from `int` applied to 0. -/
def zeroFn : Res BigInt := ofInt32 0
/-- BigInteger.cpp:762-764 `one()`. -/
def oneFn : Res BigInt := ofInt32 1
/-- BigInteger.cpp:766-768 `minus_one()`. -/
def minusOneFn : Res BigInt := ofInt32 (-1)

/-- BigInteger.cpp:20-23 the default constructor. -/
def default : BigInt := ⟨0, []⟩
/-- BigInteger.cpp:393-396 static `add(lhs, rhs)`; line 395 calls `operator+` (654-657), which runs `+=`
on a copy of `lhs`, so that `lhs` is unchanged although it is passed by reference. -/
def addFn (a b : BigInt) : Res BigInt := do
  assertValid a
  a.add b
/-- BigInteger.cpp:398-400 static `subtract(lhs, rhs)` with 464-467. -/
def subtractFn (a b : BigInt) : Res BigInt := a.sub b
/-- BigInteger.cpp:533-535 static `multiply(lhs, rhs)` with 482-485. -/
def multiplyFn (a b : BigInt) : Res BigInt := a.mul b
/-- BigInteger.cpp:719-721 static `divide(dividend, divisor)` with 672-675. -/
def divideFn (a b : BigInt) : Res BigInt := a.div b
/-- BigInteger.cpp:1617-1619 static `remainder(dividend, divisor)` with 537-540. -/
def remainderFn (a b : BigInt) : Res BigInt := a.rem b

end BigIntegerCpp.BigInt
