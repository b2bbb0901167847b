import Verif.ProgramSpec
import Verif.Model.Python
/-
What the Python operators should compute, on integers.  Only the syntax of operations and the two
kinds of operand are taken from the model.
-/
namespace BigIntegerCpp

/-- The object `v` has the value `x`. -/
def PyVal.Stands : PyVal → Int → Prop
  | .big a, x => a.Denotes x
  | .int n, x => n.value = x

/-- `/`, `//` and `%` truncate toward zero, as documented for the bindings. -/
def PyOp.meaning : PyOp → Int → Int → Except Exn Int
  | add, x, y => .ok (x + y)
  | sub, x, y => .ok (x - y)
  | mul, x, y => .ok (x * y)
  | mod, x, y => if y = 0 then .error .divideByZero else .ok (x.tmod y)
  | truediv, x, y => if y = 0 then .error .divideByZero else .ok (x.tdiv y)
  | floordiv, x, y => if y = 0 then .error .divideByZero else .ok (x.tdiv y)
  | and, x, y => .ok (Int.land x y)
  | or, x, y => .ok (Int.lor x y)
  | xor, x, y => .ok (Int.xor x y)

def PyCmp.meaning : PyCmp → Int → Int → Prop
  | lt, x, y => x < y
  | le, x, y => x ≤ y
  | eq, x, y => x = y
  | ne, x, y => x ≠ y
  | gt, x, y => x > y
  | ge, x, y => x ≥ y
instance (c : PyCmp) (x y : Int) : Decidable (c.meaning x y) := by cases c <;> unfold PyCmp.meaning <;> infer_instance

/-- The outcome `res` of an operation with left operand `l`: the integer `z`, as a `BigInteger` if
`l` is one and as an `int` otherwise. -/
def Answers (l : PyVal) (res : Option (Res (BigInt ⊕ Int))) (z : Int) : Prop :=
  match l with
  | .big _ => ∃ b : BigInt, res = some (.ok (.inl b)) ∧ b.Denotes z
  | .int _ => res = some (.ok (.inr z))

/-- The outcome of an operation that may throw. -/
def Yields (l : PyVal) (res : Option (Res (BigInt ⊕ Int))) : Except Exn Int → Prop
  | .ok z => Answers l res z
  | .error e => res = some (.throw e)

/-- The same for a pair of results. -/
def AnswersPair (l : PyVal) (res : Option (Res ((BigInt × BigInt) ⊕ (Int × Int)))) (q r : Int) : Prop :=
  match l with
  | .big _ => ∃ a b : BigInt, res = some (.ok (.inl (a, b))) ∧ a.Denotes q ∧ b.Denotes r
  | .int _ => res = some (.ok (.inr (q, r)))

/-- At least one operand is a `BigInteger`. -/
def Bound : PyVal → PyVal → Prop
  | .int _, .int _ => False
  | _, _ => True

end BigIntegerCpp
