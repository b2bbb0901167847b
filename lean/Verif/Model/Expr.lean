import Verif.Model.Program
/-
Expressions: the operators of BigInteger.h that return a new object, nested to any depth.
-/
namespace BigIntegerCpp
variable [Cfg]

/-- An expression over named objects, which it does not change. -/
inductive Expr
  | var (i : Nat)
  /-- an `int` converted to `BigInteger` -/
  | const (n : Int)
  | bin (op : BinOp) (e f : Expr)
  | un (op : UnOp) (e : Expr)
  | shl (e : Expr) (n : Int)
  | shr (e : Expr) (n : Int)
  | pow (e : Expr) (n : Int)

/-- Evaluation.  The operators are the functions of `BinOp.apply` and `UnOp.apply`, BigInteger.cpp:
932-935 `<<`, 1041-1044 `>>`, 1543-1569 `pow`.  C++ leaves open which operand is evaluated first; here it is the left one,
which matters only if both of them throw. -/
def Expr.eval (σ : Store) : Expr → Res BigInt
  | var i => .ok (σ i)
  | const n => ofInt32 n
  | bin op e f => do op.apply (← e.eval σ) (← f.eval σ)
  | un op e => do op.apply (← e.eval σ)
  | shl e n => do (← e.eval σ).shl n
  | shr e n => do (← e.eval σ).shr n
  | pow e n => do (← e.eval σ).pow n

end BigIntegerCpp
