import Verif.Model.Convert
/-
Model of `operator float` (src/BigInteger.cpp).
-/
namespace BigIntegerCpp
variable [Cfg]

/-- The built-in conversion `static_cast<float>(double)` of BigInteger.cpp:1507, on bit patterns.
Taken to be the IEEE-754 conversion in the default rounding mode (to nearest, ties to even), with
infinity for numbers out of range, as on every platform whose floats are IEC 559; ISO C++ leaves the
rounding to the implementation and the out-of-range case undefined. -/
def doubleToFloat (d : Nat) : Nat :=
  let s := d / 2 ^ 63 * 2 ^ 31
  let e := d / 2 ^ 52 % 2 ^ 11
  let frac := d % 2 ^ 52
  if e = 2047 then s + 255 * 2 ^ 23 + (if frac = 0 then 0 else 2 ^ 22 + frac / 2 ^ 29 % 2 ^ 22)
  else
    let sig := if e = 0 then frac else 2 ^ 52 + frac
    let sh := if 897 ≤ e then 29 else 29 + (897 - Nat.max 1 e)
    let p := sig / 2 ^ sh + (e - 897) * 2 ^ 23
    let r := sig % 2 ^ sh
    let p := if 2 ^ (sh - 1) < r ∨ (r = 2 ^ (sh - 1) ∧ p % 2 = 1) then p + 1 else p
    s + (if 255 * 2 ^ 23 ≤ p then 255 * 2 ^ 23 else p)

/-- BigInteger.cpp:1506-1508 `operator float`; the result is the pattern. -/
def BigInt.toFloat (a : BigInt) : Res Nat := do
  let d ← a.toDouble
  .ok (doubleToFloat d)

end BigIntegerCpp
