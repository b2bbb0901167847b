import Verif.Spec
import Mathlib.Algebra.Order.Group.Unbundled.Int
/-
Specification of IEEE-754 binary32 and of "nearest".
-/
namespace BigIntegerCpp

/-! A `float` is its 32-bit pattern: sign bit, 8 exponent bits, 23 fraction bits. -/
def fltSign (f : Nat) : Int := if f < 2 ^ 31 then 1 else -1
def fltExp (f : Nat) : Nat := f / 2 ^ 23 % 2 ^ 8
def fltFrac (f : Nat) : Nat := f % 2 ^ 23
/-- Neither an infinity nor a NaN. -/
def FltFinite (f : Nat) : Prop := fltExp f ≠ 255
/-- The patterns of plus and minus infinity. -/
def fltInfinity (negative : Bool) : Nat := if negative then 511 * 2 ^ 23 else 255 * 2 ^ 23
/-- The value of a finite float times `2^149`, an integer. -/
def fltScaled (f : Nat) : Int :=
  fltSign f * ((if fltExp f = 0 then fltFrac f else (2 ^ 23 + fltFrac f) * 2 ^ (fltExp f - 1) : Nat) : Int)

/-- `f` is the float that the IEEE-754 default rounding gives for the number `z / 2^k`, `k ≥ 149`:
no finite float is closer to it, and if another one is just as close then the last bit of `f`
is 0. -/
def NearestFloat (k : Nat) (z : Int) (f : Nat) : Prop :=
  f < 2 ^ 32 ∧ FltFinite f ∧ ∀ g, g < 2 ^ 32 → FltFinite g →
    |z - fltScaled f * 2 ^ (k - 149)| ≤ |z - fltScaled g * 2 ^ (k - 149)| ∧
    (|z - fltScaled f * 2 ^ (k - 149)| = |z - fltScaled g * 2 ^ (k - 149)| → fltScaled g = fltScaled f ∨ f % 2 = 0)

/-- Magnitudes (times `2^149`) from here on round to infinity: half a unit in the last place above
the greatest finite float, `2^128 - 2^103`. -/
def fltLimit : Nat := (2 ^ 25 - 1) * 2 ^ 252

/-- Of the bits of `n`, the first 24 are an even number, the next is 1, and of the rest the first 28
are 0 but not all: to the nearest `n` rounds up, without what follows the first 53 bits it is a tie and
goes to the even side, down. -/
def RoundsTwice (n : Nat) : Prop :=
  ∃ m s r, 2 ^ 23 ≤ m ∧ m < 2 ^ 24 ∧ m % 2 = 0 ∧ 29 < s ∧ 0 < r ∧ r < 2 ^ (s - 29) ∧ n = m * 2 ^ s + 2 ^ (s - 1) + r

/-! Classes of doubles. -/
/-- An infinity: all exponent bits set, no fraction. -/
def DblInfinite (d : Nat) : Prop := dblExp d = 2047 ∧ dblFrac d = 0
/-- Not a number: all exponent bits set, some fraction. -/
def DblNaN (d : Nat) : Prop := dblExp d = 2047 ∧ dblFrac d ≠ 0

/-- `d <= e` as IEEE-754 compares doubles. -/
def DblLe (d e : Nat) : Prop :=
  ¬ DblNaN d ∧ ¬ DblNaN e ∧
    (d = dblInfinity true ∨ e = dblInfinity false ∨ DblFinite d ∧ DblFinite e ∧ dblScaled d ≤ dblScaled e)
/-- Not a number, as a float. -/
def FltNaN (f : Nat) : Prop := fltExp f = 255 ∧ fltFrac f ≠ 0
/-- `f <= g` as IEEE-754 compares floats. -/
def FltLe (f g : Nat) : Prop :=
  ¬ FltNaN f ∧ ¬ FltNaN g ∧
    (f = fltInfinity true ∨ g = fltInfinity false ∨ FltFinite f ∧ FltFinite g ∧ fltScaled f ≤ fltScaled g)

end BigIntegerCpp
