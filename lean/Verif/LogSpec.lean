import Verif.Spec
import Verif.Model.Log
/-
What is assumed of the floating-point hardware in the theorems about logarithms.
-/
namespace BigIntegerCpp

/-- Zero, or of a magnitude far from overflow and underflow of a `double`. -/
def Normal (x : ℝ) : Prop := x = 0 ∨ (1 / 2 ^ 200 ≤ |x| ∧ |x| ≤ 2 ^ 200)

/-- Results are correct up to a relative error `ε`.  For IEEE `double` and a `std::log` that is off
by at most one unit in the last place, `ε = 2^-52`. -/
structure Fpu.Accurate (fpu : Fpu) (ε : ℝ) : Prop where
  rnd : ∀ x, Normal x → |fpu.rnd x - x| ≤ ε * |x|
  lg : ∀ x, 0 < x → |fpu.lg x - Real.log x| ≤ ε * |Real.log x|

/-- Exact arithmetic. -/
noncomputable def Fpu.exact : Fpu := ⟨id, Real.log⟩

end BigIntegerCpp
