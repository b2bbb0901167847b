import Mathlib.Data.Int.Bitwise
import Mathlib.Algebra.Order.Group.Abs
import Verif.Model.PythonDispatch
/-
Python formulas with values that are `BigInteger`s and `int`s: which operators are those of the bindings
(/repo/bindings/python/python-bindings.cpp:134-301) and which are CPython's own.
-/
namespace BigIntegerCpp
variable [Cfg]

/-- The binary operators of a formula.  `/` is not among them: of two `int`s it gives a `float`. -/
inductive PyArith
  | add | sub | mul | mod | floordiv | and | or | xor
  deriving DecidableEq, Repr

/-- The operator of the bindings (lines 134-171, 232-241, 262-297). -/
def PyArith.op : PyArith → PyOp
  | add => .add
  | sub => .sub
  | mul => .mul
  | mod => .mod
  | floordiv => .floordiv
  | and => .and
  | or => .or
  | xor => .xor

/-- CPython's own operator on two `int`s (longobject.c, not part of the bindings). -/
def PyArith.ints : PyArith → Int → Int → PyOut PyObject
  | add, x, y => .value (pyWrap (.inr (x + y)))
  | sub, x, y => .value (pyWrap (.inr (x - y)))
  | mul, x, y => .value (pyWrap (.inr (x * y)))
  | mod, x, y => if y = 0 then .raises .zeroDivisionError else .value (pyWrap (.inr (x.fmod y)))
  | floordiv, x, y => if y = 0 then .raises .zeroDivisionError else .value (pyWrap (.inr (x.fdiv y)))
  | and, x, y => .value (pyWrap (.inr (Int.land x y)))
  | or, x, y => .value (pyWrap (.inr (Int.lor x y)))
  | xor, x, y => .value (pyWrap (.inr (Int.xor x y)))

/-- `l op r`: two `int`s are CPython's, everything else the bindings' (lines 134-297). -/
def pyArith (o : PyArith) (l r : PyObject) : PyOut PyObject :=
  match l, r with
  | .int m, .int n => o.ints m.value n.value
  | l, r =>
    match pyBinary o.op.eval l r with
    | .value v => .value (pyWrap v)
    | .raises e => .raises e
    | .elsewhere => .elsewhere
    | .cpp (.ub u) => .cpp (.ub u)
    | .cpp .abort => .cpp .abort
    | .cpp _ => .cpp .diverge

/-- CPython's own `-x`, `+x`, `abs(x)`, `~x`, `copy.deepcopy(x)` of an `int`. -/
def PyUn.ints : PyUn → Int → Int
  | neg, x => -x
  | pos, x => x
  | abs, x => |x|
  | invert, x => Int.not x
  | deepcopy, x => x

/-- The unary operators (lines 298-301, 323-326); those of objects of other types are not modelled. -/
def pyUnary (o : PyUn) : PyObject → PyOut PyObject
  | .big a =>
    match PyOut.call (o.method a) with
    | .value b => .value (.big b)
    | .raises e => .raises e
    | .elsewhere => .elsewhere
    | .cpp (.ub u) => .cpp (.ub u)
    | .cpp .abort => .cpp .abort
    | .cpp _ => .cpp .diverge
  | .int n => .value (pyWrap (.inr (o.ints n.value)))
  | _ => .elsewhere

/-- A Python formula with variables. -/
inductive PyFormula
  | arg (i : Nat)
  | un (o : PyUn) (e : PyFormula)
  | bin (o : PyArith) (l r : PyFormula)
  deriving Inhabited

/-- CPython evaluates the left operand, then the right one, then the operator; an exception ends it. -/
def PyFormula.eval (env : Nat → PyObject) : PyFormula → PyOut PyObject
  | arg i => .value (env i)
  | un o e =>
    match e.eval env with
    | .value v => pyUnary o v
    | out => out
  | bin o l r =>
    match l.eval env with
    | .value v =>
      match r.eval env with
      | .value w => pyArith o v w
      | out => out
    | out => out

end BigIntegerCpp
