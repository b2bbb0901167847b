import Verif.Lemmas.Arith
/-
Concrete objects used by the non-vacuity examples beside the property theorems.
-/
namespace BigIntegerCpp.Samples
open BigIntegerCpp
set_option linter.unusedSectionVars false

/-- `-(5 + 7 * 2^32 + 2^64)`: three words, negative. -/
def neg3 : BigInt := ⟨-1, [5, 7, 1]⟩
/-- `2^32 * 9 + 3`: two words, positive. -/
def pos2 : BigInt := ⟨1, [3, 9]⟩
/-- A small negative number. -/
def small : BigInt := ⟨-42, []⟩

variable [Cfg]

theorem neg3_denotes : neg3.Denotes (-18446744103774322693) :=
  BigInt.denotes_big (.inr rfl) (by decide) (by decide) (by decide) (by decide) (by decide)
theorem pos2_denotes : pos2.Denotes 38654705667 :=
  BigInt.denotes_big (.inl rfl) (by decide) (by decide) (by decide) (by decide) (by decide)
theorem small_denotes : small.Denotes (-42) := BigInt.denotes_small (by decide) (by decide)

theorem neg3_fits : neg3.Fits := by decide
theorem pos2_fits : pos2.Fits := by decide
theorem small_fits : small.Fits := by decide

end BigIntegerCpp.Samples
