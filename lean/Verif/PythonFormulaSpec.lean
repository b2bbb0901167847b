import Mathlib.Data.Rat.Floor
import Verif.PythonDispatchSpec
import Verif.PythonObjectSpec
import Verif.Model.PythonFormula
/-
What a Python formula is worth, on integers.  From the model only the syntax of formulas is used.
-/
namespace BigIntegerCpp

/-- Python's operators on integers (Python Language Reference 6.7): `//` rounds down, `%` has the sign of the divisor.
Nothing if the divisor is 0. -/
def PyArith.floored : PyArith → Int → Int → Option Int
  | add, x, y => some (x + y)
  | sub, x, y => some (x - y)
  | mul, x, y => some (x * y)
  | mod, x, y => if y = 0 then none else some (x - y * ⌊(x / y : ℚ)⌋)
  | floordiv, x, y => if y = 0 then none else some ⌊(x / y : ℚ)⌋
  | and, x, y => some (Int.land x y)
  | or, x, y => some (Int.lor x y)
  | xor, x, y => some (Int.xor x y)

/-- The operators of `BigInteger`: `//` rounds toward zero, `%` has the sign of the dividend. -/
def PyArith.truncated : PyArith → Int → Int → Option Int
  | add, x, y => some (x + y)
  | sub, x, y => some (x - y)
  | mul, x, y => some (x * y)
  | mod, x, y => if y = 0 then none else some (x.tmod y)
  | floordiv, x, y => if y = 0 then none else some (x.tdiv y)
  | and, x, y => some (Int.land x y)
  | or, x, y => some (Int.lor x y)
  | xor, x, y => some (Int.xor x y)

/-- The operator divides. -/
def PyArith.Divides (o : PyArith) : Prop := o = .mod ∨ o = .floordiv
instance (o : PyArith) : Decidable o.Divides := by unfold PyArith.Divides; infer_instance

/-- The division of `x` by `y` leaves a remainder, and the two have opposite signs. -/
def Crosses (x y : Int) : Prop := ¬ y ∣ x ∧ (0 < x ∧ y < 0 ∨ x < 0 ∧ 0 < y)
instance (x y : Int) : Decidable (Crosses x y) := by unfold Crosses; infer_instance

/-- The leftmost variable. -/
def PyFormula.leftmost : PyFormula → Nat
  | arg i => i
  | un _ e => e.leftmost
  | bin _ l _ => l.leftmost

/-- The value of the formula as Python computes it when all variables are `int`s. -/
def PyFormula.plain (x : Nat → Int) : PyFormula → Option Int
  | arg i => some (x i)
  | un o e => (e.plain x).map o.meaning
  | bin o l r => do o.floored (← l.plain x) (← r.plain x)

/-- The value if the variables in `big` are `BigInteger`s: an operator whose two operands start with an `int` is Python's,
every other one is that of `BigInteger`. -/
def PyFormula.mixed (big : Nat → Bool) (x : Nat → Int) : PyFormula → Except PyExc Int
  | arg i => .ok (x i)
  | un o e => (e.mixed big x).map o.meaning
  | bin o l r =>
    match l.mixed big x with
    | .error e => .error e
    | .ok u =>
      match r.mixed big x with
      | .error e => .error e
      | .ok v =>
        if big l.leftmost || big r.leftmost then
          match o.truncated u v with
          | some z => .ok z
          | none => .error .runtimeError
        else
          match o.floored u v with
          | some z => .ok z
          | none => .error .zeroDivisionError

/-- The outcome is the object (a `BigInteger` if `b`, else an `int`) of the value, or the exception. -/
def Evaluates (b : Bool) (out : PyOut PyObject) : Except PyExc Int → Prop
  | .ok z => GivesObject b out z
  | .error e => out = .raises e

/-- Every value that the evaluation of the formula meets is in the range of `BigInteger`. -/
def PyFormula.Bounded (big : Nat → Bool) (x : Nat → Int) : PyFormula → Prop
  | arg i => InRange (x i)
  | un o e => e.Bounded big x ∧ ∀ z, (un o e).mixed big x = .ok z → InRange z
  | bin o l r => l.Bounded big x ∧ r.Bounded big x ∧ ∀ z, (bin o l r).mixed big x = .ok z → InRange z

/-- No division of the formula, evaluated on `int`s, leaves a remainder with operands of opposite signs. -/
def PyFormula.Straight (x : Nat → Int) : PyFormula → Prop
  | arg _ => True
  | un _ e => e.Straight x
  | bin o l r => l.Straight x ∧ r.Straight x ∧
      (o.Divides → ∀ u v, l.plain x = some u → r.plain x = some v → ¬ Crosses u v)

/-- The formula has no division. -/
def PyFormula.NoDivision : PyFormula → Prop
  | arg _ => True
  | un _ e => e.NoDivision
  | bin o l r => l.NoDivision ∧ r.NoDivision ∧ ¬ o.Divides

/-- `a`, `m`, `n` as the variables 0, 1 and all others. -/
def threeArgs (a m n : PyObject) : Nat → PyObject
  | 0 => a
  | 1 => m
  | _ => n

end BigIntegerCpp
