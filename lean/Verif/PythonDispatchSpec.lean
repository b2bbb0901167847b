import Verif.PythonSpec
import Verif.Model.PythonDispatch
/-
What is expected of Python expressions with objects of any type.  From the model only the kinds of object and the
form of an outcome are used.
-/
namespace BigIntegerCpp

/-- The object is a `BigInteger` or an `int`, of value `x`. -/
def PyObject.Stands : PyObject → Int → Prop
  | .big a, x => a.Denotes x
  | .int n, x => n.value = x
  | _, _ => False

/-- The object is neither a `BigInteger` nor an `int`. -/
def PyObject.Foreign : PyObject → Prop
  | .big _ => False
  | .int _ => False
  | _ => True

/-- The object's own operators do not know `BigInteger`s. -/
def PyObject.Declines (o : PyObject) : Prop := o ≠ .other true

/-- At least one of the two is a `BigInteger`. -/
def OneBig (l r : PyObject) : Prop := (∃ a, l = .big a) ∨ ∃ b, r = .big b

/-- The outcome of an operator with left operand `l` is the integer `z`: a `BigInteger` if `l` is one, an `int` otherwise. -/
def Gives (l : PyObject) (out : PyOut (BigInt ⊕ Int)) (z : Int) : Prop :=
  match l with
  | .big _ => ∃ b : BigInt, out = .value (.inl b) ∧ b.Denotes z
  | _ => out = .value (.inr z)

/-- The outcome is an object of value `z`, a `BigInteger` if `big`, else an `int`. -/
def GivesObject (big : Bool) (out : PyOut PyObject) (z : Int) : Prop :=
  if big then ∃ b, out = .value (.big b) ∧ b.Denotes z else ∃ n, out = .value (.int n) ∧ n.value = z

end BigIntegerCpp
