import Verif.Model.RandomTests
import Verif.CalculatorSpec
/- Vocabulary for what the tests with random operands test. -/
namespace BigIntegerCpp
variable [Cfg]
namespace RandomTests
open Calculator

/-- An array of `min` to `max` bytes, none above 0x7f. -/
def RandomArray (min max : Nat) (bytes : List Nat) : Prop := (∀ b ∈ bytes, b ≤ 0x7f) ∧ min ≤ bytes.length ∧ bytes.length ≤ max

/-- A successful check of the greatest common divisor of two arrays. -/
def gcdPassed (b1 b2 : List Nat) : Check := ⟨[print b1 ++ (print b2 ++ "bGCD".toList)], true⟩
/-- A successful check of `div_rem`; the first array is the divisor. -/
def divRemPassed (b1 b2 : List Nat) : Check := ⟨[print b1 ++ (print b2 ++ "bDivRem".toList)], true⟩
/-- A successful check of `mod_pow`: base, exponent, modulus. -/
def modPowPassed (b1 b2 b3 : List Nat) : Check := ⟨[print b3 ++ (print b2 ++ (print b1 ++ "tModPow".toList))], true⟩

/-- The same checks ten times. -/
def tenTimes (l : List Check) : List Check := l ++ l ++ l ++ l ++ l ++ l ++ l ++ l ++ l ++ l

end RandomTests
end BigIntegerCpp
