import Verif.Model.Expr
import Verif.ProgramSpec
/-
The integer value of an expression.
-/
namespace BigIntegerCpp

/-- `Expr.Value ρ e z`: over the integers `e` is `z`.  All values on the way are in range, there is no
division by zero or negative exponent, and no `>>` that misfires (C22). -/
inductive Expr.Value (ρ : IntStore) : Expr → Int → Prop
  | var {i} : InRange (ρ i) → Value ρ (.var i) (ρ i)
  | const {n} : IntRange n → Value ρ (.const n) n
  | bin {op e f x y z} : Value ρ e x → Value ρ f y → op.meaning x y = .ok z → InRange z → Value ρ (.bin op e f) z
  | un {op e x} : Value ρ e x → InRange (op.meaning x) → Value ρ (.un op e) (op.meaning x)
  | shl {e x n} : Value ρ e x → IntRange n → (n < 0 → ¬ ShiftMisfires x (-n).toNat) → InRange (shiftInt x n) →
      Value ρ (.shl e n) (shiftInt x n)
  | shr {e x n} : Value ρ e x → IntRange n → (0 < n → ¬ ShiftMisfires x n.toNat) → InRange (shiftInt x (-n)) →
      Value ρ (.shr e n) (shiftInt x (-n))
  | pow {e x} {n : Nat} : Value ρ e x → n < 2 ^ 31 → InRange (x ^ n) → Value ρ (.pow e n) (x ^ n)

/-- Expressions without division, shift and power, which make sense for all integers. -/
def Expr.Simple : Expr → Prop
  | var _ => True
  | const n => IntRange n
  | bin op e f => op ≠ .div ∧ op ≠ .rem ∧ e.Simple ∧ f.Simple
  | un _ e => e.Simple
  | _ => False

/-- Their integer value. -/
def Expr.int (ρ : IntStore) : Expr → Int
  | var i => ρ i
  | const n => n
  | bin .add e f => e.int ρ + f.int ρ
  | bin .sub e f => e.int ρ - f.int ρ
  | bin .mul e f => e.int ρ * f.int ρ
  | bin .and e f => Int.land (e.int ρ) (f.int ρ)
  | bin .or e f => Int.lor (e.int ρ) (f.int ρ)
  | bin .xor e f => Int.xor (e.int ρ) (f.int ρ)
  | un op e => op.meaning (e.int ρ)
  | _ => 0

/-- A bound on the number of bits of the value, for variables of `n` bits. -/
def Expr.width (n : Nat) : Expr → Nat
  | bin _ e f => 2 * max (e.width n) (f.width n) + 2
  | un _ e => e.width n + 1
  | _ => max n 32

end BigIntegerCpp
