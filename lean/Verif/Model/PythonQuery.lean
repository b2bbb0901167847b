import Verif.Model.PythonObject
import Verif.Model.Log
/-
Model of the remaining methods of the Python class, /repo/bindings/python/python-bindings.cpp:
predicates, bit length, sign, logarithms.
-/
namespace BigIntegerCpp
variable [Cfg]

/-- python-bindings.cpp:330 `is_power_of_two`. -/
def pyIsPowerOfTwo (a : BigInt) : Res Bool := a.isPowerOfTwo

/-- python-bindings.cpp:331 `is_even`. -/
def pyIsEven (a : BigInt) : Res Bool := a.isEven

/-- python-bindings.cpp:342 `get_bit_Length`. -/
def pyGetBitLength (a : BigInt) : Res Nat := a.bitLength

/-- python-bindings.cpp:343, the property `sign`. -/
def pySign (a : BigInt) : Res Int := a.signum

/-- python-bindings.cpp:332-339 `BigInteger.log(value)` and `BigInteger.log(value, base_value)`:
four overloads, chosen by the type of `value` and by whether the base is given. -/
noncomputable def pyLog [Fpu] : PyVal → Option Dbl → Res Dbl
  | .big a, none => a.ln                                    -- 332
  | .int n, none => do (← toBigInteger n).ln                -- 333
  | .big a, some base => a.log base                         -- 334-336
  | .int n, some base => do (← toBigInteger n).log base     -- 337-339

/-- python-bindings.cpp:340-341 `BigInteger.log10(value)`. -/
noncomputable def pyLog10 [Fpu] : PyVal → Res Dbl
  | .big a => a.log10                                       -- 340
  | .int n => do (← toBigInteger n).log10                   -- 341

end BigIntegerCpp
