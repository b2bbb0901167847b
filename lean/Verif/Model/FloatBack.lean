import Verif.Model.Float
/-
A `float` given to a constructor of BigInteger.
-/
namespace BigIntegerCpp
variable [Cfg]

/-- [conv.fpprom] the promotion of a `float` to `double`, on bit patterns of IEEE-754: the argument of `BigInteger(double)`
(BigInteger.h:32), the constructor that a `float` selects.  A signalling NaN becomes quiet. -/
def floatToDouble (f : Nat) : Nat :=
  let s := f / 2 ^ 31 * 2 ^ 63
  let e := f / 2 ^ 23 % 2 ^ 8
  let frac := f % 2 ^ 23
  if e = 255 then s + 2047 * 2 ^ 52 + (if frac = 0 then 0 else 2 ^ 51 + frac % 2 ^ 22 * 2 ^ 29)
  else if e = 0 then
    if frac = 0 then s else s + (Nat.log2 frac + 874) * 2 ^ 52 + (frac * 2 ^ (52 - Nat.log2 frac) - 2 ^ 52)
  else s + (e + 896) * 2 ^ 52 + frac * 2 ^ 29

/-- `BigInteger(f)` for a `float` `f`: the promotion and the constructor of BigInteger.cpp:1693-1755. -/
def ofFloat (f : Nat) : Res BigInt := ofDouble (floatToDouble f)

/-- `BigInteger((float) a)` (user code): BigInteger.cpp:1506-1508, then 1693-1755. -/
def BigInt.throughFloat (a : BigInt) : Res BigInt := do ofFloat (← a.toFloat)

end BigIntegerCpp
