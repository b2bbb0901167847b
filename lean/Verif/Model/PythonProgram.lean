import Verif.Model.PythonFormula
import Mathlib.Logic.Function.Basic
/-
Python programs with variables that hold `BigInteger`s and `int`s: assignments, `if` and `while`.  The operators and
comparisons are those of /repo/bindings/python/python-bindings.cpp:99-301 as soon as one operand is a `BigInteger`.
-/
namespace BigIntegerCpp
variable [Cfg]

/-- An outcome that is not a value ends the program. -/
def PyOut.andThen {α β : Type} (out : PyOut α) (k : α → PyOut β) : PyOut β :=
  match out with
  | .value v => k v
  | .raises e => .raises e
  | .elsewhere => .elsewhere
  | .cpp (.ub u) => .cpp (.ub u)
  | .cpp .abort => .cpp .abort
  | .cpp _ => .cpp .diverge

/-- The condition of `if` and `while`: a comparison, or an object taken for its truth value. -/
inductive PyTest
  | cmp (c : PyCmp) (l r : PyFormula)
  | truth (e : PyFormula)

/-- CPython `PyObject_IsTrue`: the class has neither `__bool__` nor `__len__` (lines 84-343, `boundNames`), an `int` is true if it is
not 0.  Objects of other types are not modelled. -/
def pyTruth : PyObject → PyOut Bool
  | .big a => .value (isTrue boundNames (fun _ => true) (fun _ => true) a)
  | .int n => .value (decide (n.value ≠ 0))
  | _ => .elsewhere

/-- Comparisons: lines 99-131. -/
def PyTest.eval (env : Nat → PyObject) : PyTest → PyOut Bool
  | cmp c l r => (l.eval env).andThen fun v => (r.eval env).andThen fun w => pyCompare c v w
  | truth e => (e.eval env).andThen pyTruth

inductive PyStmt
  | skip
  | assign (i : Nat) (e : PyFormula)
  | seq (a b : PyStmt)
  | ite (t : PyTest) (a b : PyStmt)
  | loop (t : PyTest) (b : PyStmt)

/-- CPython's execution for `n` steps (nested statements count their own): nothing if it has not ended by then. -/
def PyStmt.run : Nat → PyStmt → (Nat → PyObject) → Option (PyOut (Nat → PyObject))
  | 0, _, _ => none
  | _ + 1, skip, env => some (.value env)
  | _ + 1, assign i e, env => some ((e.eval env).andThen fun v => .value (Function.update env i v))
  | n + 1, seq a b, env =>
    match a.run n env with
    | none => none
    | some (.value env') => b.run n env'
    | some out => some out
  | n + 1, ite t a b, env =>
    match t.eval env with
    | .value true => a.run n env
    | .value false => b.run n env
    | out => some (out.andThen fun _ => .value env)
  | n + 1, loop t b, env =>
    match t.eval env with
    | .value true =>
      match b.run n env with
      | none => none
      | some (.value env') => (loop t b).run n env'
      | some out => some out
    | .value false => some (.value env)
    | out => some (out.andThen fun _ => .value env)

end BigIntegerCpp
