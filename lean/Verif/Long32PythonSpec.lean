import Verif.Long32Spec
import Verif.PythonSpec
/-
What Python's operators compute where `long` has 32 bits, on integers.
-/
namespace BigIntegerCpp

/-- Operands for which the answer is right: for `+` and `-` both between `-2^31` and `2^31`, or the magnitudes are added, and
then either none or both of them are that small or no carry should travel past the second word; for `*` one factor is below
`2^992`.  The other operators are right always. -/
def PyOp.SafeLong32 : PyOp → Int → Int → Prop
  | .add, x, y => IntSized x ∧ IntSized y ∨ (x < 0 ↔ y < 0) ∧ ((IntSized x ↔ IntSized y) ∨ ¬ CarryLost x.natAbs y.natAbs)
  | .sub, x, y => IntSized x ∧ IntSized y ∨ ¬ (x < 0 ↔ y < 0) ∧ ((IntSized x ↔ IntSized y) ∨ ¬ CarryLost x.natAbs y.natAbs)
  | .mul, x, y => x.natAbs < 2 ^ 992 ∨ y.natAbs < 2 ^ 992
  | _, _, _ => True

/-- The operands for which a carry is lost, so that the answer is `2^64` too small in magnitude. -/
def PyOp.LosesCarry : PyOp → Int → Int → Prop
  | .add, x, y => (x < 0 ↔ y < 0) ∧ ¬ (IntSized x ↔ IntSized y) ∧ CarryLost x.natAbs y.natAbs
  | .sub, x, y => ¬ (x < 0 ↔ y < 0) ∧ ¬ (IntSized x ↔ IntSized y) ∧ CarryLost x.natAbs y.natAbs
  | _, _, _ => False

end BigIntegerCpp
