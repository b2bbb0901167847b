import Verif.Model.Convert
import Mathlib.Analysis.SpecialFunctions.Log.Base
/-
Logarithms.  The `double`s of this part are mathematical objects: NaN, the infinities and the real
numbers (positive and negative zero are one).  What the floating-point unit and the C library do
to finite results is a parameter, `Fpu`: a rounding of real numbers and a logarithm function.
-/
namespace BigIntegerCpp
open Classical

/-- The floating-point unit: `rnd` rounds the exact result of `+`, `/` and of the conversion of an
integer; `lg` is `std::log` on positive numbers. -/
class Fpu where
  rnd : ℝ → ℝ
  lg : ℝ → ℝ

/-- A `double`. -/
inductive Dbl
  | nan
  | pinf
  | ninf
  | fin (x : ℝ)

variable [Cfg] [Fpu]

/-- `std::log`, special values as in C99 annex F. -/
noncomputable def Dbl.log : Dbl → Dbl
  | nan => nan
  | pinf => pinf
  | ninf => nan
  | fin x => if x < 0 then nan else if x = 0 then ninf else fin (Fpu.lg x)

/-- Sign of an infinite quotient or sum. -/
noncomputable def Dbl.inf (neg : Prop) : Dbl := if neg then ninf else pinf

/-- IEEE division.  A finite number over zero has the sign of the dividend, as zeros have no sign here. -/
noncomputable def Dbl.div : Dbl → Dbl → Dbl
  | fin x, fin y => if y = 0 then (if x = 0 then nan else inf (x < 0)) else fin (Fpu.rnd (x / y))
  | fin _, pinf => fin 0
  | fin _, ninf => fin 0
  | pinf, fin y => inf (y < 0)
  | ninf, fin y => inf (0 ≤ y)
  | _, _ => nan

/-- IEEE addition. -/
noncomputable def Dbl.add : Dbl → Dbl → Dbl
  | fin x, fin y => fin (Fpu.rnd (x + y))
  | fin _, pinf => pinf
  | fin _, ninf => ninf
  | pinf, fin _ => pinf
  | ninf, fin _ => ninf
  | pinf, pinf => pinf
  | ninf, ninf => ninf
  | _, _ => nan

/-- NumericsHelpers.h:134-152 `csharp_log_wrapper`. -/
noncomputable def logWrapper (a newBase : Dbl) : Dbl :=
  if a = .nan then a
  else if newBase = .nan then newBase
  else if newBase = .fin 1 then .nan
  else if a ≠ .fin 1 ∧ (newBase = .fin 0 ∨ newBase = .pinf ∨ newBase = .ninf) then .nan
  else a.log.div newBase.log

/-- BigInteger.cpp:1514-1537 `log(value, baseValue)`.  The `int` `_sign` and the literal 2 convert
exactly; the 64-bit integers `x` and `b - 64` are rounded. -/
noncomputable def BigInt.log (value : BigInt) (baseValue : Dbl) : Res Dbl :=
  if value.sign < 0 ∨ baseValue = .fin 1 then .ok .nan
  else if baseValue = .pinf then do
    let one ← value.isOne
    .ok (if one then .fin 0 else .nan)
  else do
    let bad ← (if baseValue = .fin 0 then (do .ok !(← value.isOne)) else .ok false)
    if bad then .ok .nan
    else if value.bits = [] then .ok (logWrapper (.fin value.sign) baseValue)
    else do
      let n := value.bits.length
      let h ← idx value.bits (n - 1)
      let m ← (if n > 1 then idx value.bits (n - 2) else .ok 0)
      let l ← (if n > 2 then idx value.bits (n - 3) else .ok 0)
      let c := cbitHighZero32 h
      if c ≥ 32 then .ub .badShift else do
      let b : Int := i64 (u64sub (n * 32) c)
      let x := u64 (h <<< (32 + c)) ||| u64 (m <<< c) ||| (l >>> (32 - c))
      let b' ← long (b - 64)
      .ok ((logWrapper (.fin (Fpu.rnd x)) baseValue).add
        ((Dbl.fin (Fpu.rnd b')).div (logWrapper baseValue (.fin 2))))

/-- BigInteger.cpp:1510-1512 `log(value)`. -/
noncomputable def BigInt.ln (value : BigInt) : Res Dbl := value.log (.fin (Fpu.rnd 2.7182818284590451))

/-- BigInteger.cpp:1539-1541 `log10(value)`. -/
noncomputable def BigInt.log10 (value : BigInt) : Res Dbl := value.log (.fin 10)

end BigIntegerCpp
