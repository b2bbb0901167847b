import Verif.Model.Overloads
import Verif.ProgramSpec
/- Vocabulary for expressions that mix objects and built-in numbers. -/
namespace BigIntegerCpp
namespace Overload

/-- The values of the integer types. -/
def Ty.Holds : Ty → Int → Prop
  | .bool, v => 0 ≤ v ∧ v < 2
  | .char, v | .schar, v => -2 ^ 7 ≤ v ∧ v < 2 ^ 7
  | .uchar, v => 0 ≤ v ∧ v < 2 ^ 8
  | .short, v => -2 ^ 15 ≤ v ∧ v < 2 ^ 15
  | .ushort, v => 0 ≤ v ∧ v < 2 ^ 16
  | .int, v => -2 ^ 31 ≤ v ∧ v < 2 ^ 31
  | .uint, v => 0 ≤ v ∧ v < 2 ^ 32
  | .long, v | .llong, v => -2 ^ 63 ≤ v ∧ v < 2 ^ 63
  | .ulong, v | .ullong, v => 0 ≤ v ∧ v < 2 ^ 64
  | .float, _ | .double, _ | .ldouble, _ => False

/-- The integral part of a number is `z`. -/
def Number.Is : Number → Int → Prop
  | .int t v, z => t.Holds v ∧ z = v
  | .flt t d, z => (t = .float ∨ t = .double) ∧ d < 2 ^ 64 ∧ DblFinite d ∧ z = (dblScaled d).tdiv (2 ^ 1074)
  | .ext n, z => n = some z

/-- The operand stands for the integer `z`: an object of that value, or a number with that integral part. -/
def Operand.Is : Operand → Int → Prop
  | .num n, z => n.Is z
  | .obj _ x, z => x.Denotes z ∧ InRange z

/-- One of the operands is an object. -/
def OneObject : Operand → Operand → Prop
  | .num _, .num _ => False
  | _, _ => True

/-- The result of the operator on integers. -/
def Op.Result : Op → Int → Int → Int → Prop
  | .add, x, y, z => z = x + y
  | .sub, x, y, z => z = x - y
  | .mul, x, y, z => z = x * y
  | .div, x, y, z => z = x.tdiv y
  | .rem, x, y, z => z = x.tmod y
  | .and, x, y, z => ∀ k, ibit z k = (ibit x k && ibit y k)
  | .or, x, y, z => ∀ k, ibit z k = (ibit x k || ibit y k)
  | .xor, x, y, z => ∀ k, ibit z k = (ibit x k ^^ ibit y k)
def Cmp.holds : Cmp → Int → Int → Bool
  | .lt, x, y => x < y
  | .gt, x, y => x > y
  | .le, x, y => x ≤ y
  | .ge, x, y => x ≥ y
  | .eq, x, y => x = y
  | .ne, x, y => x ≠ y

/-- The expression calls the library and returns an object that stands for `z`. -/
def Meaning.Returns [Cfg] (m : Meaning BigInt) (z : Int) : Prop := ∃ r, m = .library r ∧ BigIntegerCpp.Returns r z

end Overload
end BigIntegerCpp
