import Verif.Spec
import Mathlib.Algebra.Order.Field.Power
import Mathlib.Algebra.Order.Ring.Abs
import Mathlib.Data.Rat.Cast.Order
/-
Specification for the helper functions that take a double apart and put it together.
-/
namespace BigIntegerCpp

/-- The number a finite double stands for, as a rational number. -/
def dblValue (d : Nat) : ℚ := (dblScaled d : ℚ) / 2 ^ 1074

/-- `d` is the finite double closest to zero-side of `q ≥ 0` among the doubles of one sign: its
magnitude does not exceed `q`, and no finite double with magnitude at most `q` is larger. -/
structure Truncates (d : Nat) (q : ℚ) : Prop where
  /-- the pattern is a pattern of 64 bits -/
  pattern : d < 2 ^ 64
  /-- and neither an infinity nor a NaN -/
  finite : DblFinite d
  /-- it does not exceed `q` -/
  le : |dblValue d| ≤ q
  /-- and is the largest such -/
  largest : ∀ c, c < 2 ^ 64 → DblFinite c → |dblValue c| ≤ q → |dblValue c| ≤ |dblValue d|

end BigIntegerCpp
