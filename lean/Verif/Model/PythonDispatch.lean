import Verif.Model.PythonObject
/-
Python expressions with objects of any type: how CPython finds the method, how pybind11 finds the overload, and which
Python exception a C++ exception becomes.  /repo/bindings/python/python-bindings.cpp.

CPython: `l op r` calls `l.__op__(r)`; if that returns `NotImplemented`, or `l` has no such method, `r.__rop__(l)`
(mirrored comparison for comparisons); the classes here are not subclasses of each other.  pybind11: the overloads are
tried in order, an overload is taken if every argument has the type of its parameter (there is no
`implicitly_convertible`, and `None` is no reference); if none is taken, `TypeError` is raised, for no method is declared
with `py::is_operator()`, which would return `NotImplemented`.
-/
namespace BigIntegerCpp
variable [Cfg]

/-- A Python object: a `BigInteger`, an `int` (or `bool`), a `float`, an object with the buffer protocol, `None`, or an
object of another type; the latter may have operators that take a `BigInteger` on the other side (`takes`), and then
returns from them an object of its own; the objects of the other types decline. -/
inductive PyObject
  | big (a : BigInt)
  | int (n : PyInt)
  | float (d : Nat)
  | buffer (b : PyBuffer)
  | none
  | other (takes : Bool)

/-- The exceptions of Python that matter here. -/
inductive PyExc
  | typeError | overflowError | indexError | valueError | runtimeError | zeroDivisionError
  deriving DecidableEq, Repr

/-- pybind11's `translate_exception`: the Python exception for a C++ exception that leaves a method.  `DivideByZero`
(include/exceptions.h:5-9) is derived from `std::exception` only; the latter becomes `RuntimeError`, and so does
`py::cast_error`. -/
def Exn.toPy : Exn → PyExc
  | .divideByZero => .runtimeError
  | .overflowError => .overflowError
  | .outOfRange => .indexError
  | .runtimeError => .runtimeError
  | .castError => .runtimeError
  | .invalidArgument => .valueError

/-- What an expression does: return a value, raise, leave the bindings to an object of another type, or what the C++ code
does otherwise (undefined behaviour, a failed assertion, no end). -/
inductive PyOut (α : Type)
  | value (v : α)
  | raises (e : PyExc)
  | elsewhere
  | cpp (r : Res α)

/-- The call of a method body. -/
def PyOut.call {α : Type} : Res α → PyOut α
  | .ok v => .value v
  | .throw e => .raises e.toPy
  | r => .cpp r

/-- The arguments the overloads of the operators take: `BigInteger&` and `py::int_&` (lines 99-297). -/
def PyObject.operand : PyObject → Option PyVal
  | .big a => some (.big a)
  | .int n => some (.int n)
  | _ => Option.none

/-- Lines 99-297: `l op r` for an operator with the overloads `__op__(BigInteger)`, `__op__(int)`, `__rop__(int)` (for
comparisons: the mirrored one), whose bodies are `f`. -/
def pyBinary {α : Type} (f : PyVal → PyVal → Option (Res α)) (l r : PyObject) : PyOut α :=
  match l, r with
  | .big a, r =>
    match r.operand with
    | some v => match f (.big a) v with | some x => .call x | Option.none => .elsewhere
    | Option.none => .raises .typeError
  | .other true, _ => .elsewhere
  | .int n, .big b => match f (.int n) (.big b) with | some x => .call x | Option.none => .elsewhere
  | _, .big _ => .raises .typeError
  | _, _ => .elsewhere

/-- The object is of another type and may take a `BigInteger` on the other side. -/
def PyObject.takes : PyObject → Bool
  | .other t => t
  | _ => false
def PyObject.isBig : PyObject → Bool
  | .big _ => true
  | _ => false

/-- Lines 213-221: `pow(a, e, m)` for an `m` other than `None` (CPython drops a `None`).  CPython calls `a.__pow__(e, m)`; if `a` is
no `BigInteger` no method of the bindings is found (before Python 3.14 `__rpow__` is not asked, since then it is, and is not bound
with three parameters). -/
def pyPow3 (a e m : PyObject) : PyOut BigInt :=
  match a with
  | .big x =>
    match e.operand, m.operand with
    | some v, some w => match pyPowMod (.big x) v w with | some r => .call r | Option.none => .raises .typeError
    | _, _ => .raises .typeError
  | a => if a.takes || e.takes || m.takes then .elsewhere else if e.isBig || m.isBig then .raises .typeError else .elsewhere

/-- Lines 86-97: `BigInteger(value)`. -/
def pyNew : PyObject → PyOut BigInt
  | .int n => .call (toBigInteger n)
  | .buffer b => .call (ofBuffer b)
  | _ => .raises .typeError

/-- The names bound in the class (lines 84-343); what is not among them is inherited from Python's `object`. -/
def boundNames : List String :=
  ["__version__", "__version_bindings__", "__init__", "__lt__", "__le__", "__eq__", "__hash__", "__gt__", "__ge__",
   "__add__", "__radd__", "__sub__", "__rsub__", "__mul__", "__rmul__", "__mod__", "__rmod__", "__divmod__", "__rdivmod__",
   "__pow__", "__rpow__", "__truediv__", "__rtruediv__", "__floordiv__", "__rfloordiv__", "__lshift__", "__rlshift__",
   "__rshift__", "__rrshift__", "__and__", "__rand__", "__or__", "__ror__", "__xor__", "__rxor__", "__neg__", "__pos__",
   "__abs__", "__invert__", "__bytes__", "to_array", "__int__", "__float__", "__index__", "__str__", "__deepcopy__",
   "zero", "one", "minus_one", "is_power_of_two", "is_even", "log", "log10", "get_bit_Length", "sign"]

/-- CPython `PyObject_IsTrue`, for `if x`, `while x`, `not x`, `bool(x)`: `__bool__` if there is one, else whether
`__len__` is not zero, else `True`.  `bool` and `len` stand for these two methods. -/
def isTrue (names : List String) (bool len : BigInt → Bool) (a : BigInt) : Bool :=
  if "__bool__" ∈ names then bool a else if "__len__" ∈ names then len a else true

/-- `l op= r`: the in-place method (`iname`, with body `g`) if there is one, else `l op r`. -/
def pyInPlace {α : Type} (names : List String) (iname : String) (g : PyObject → PyObject → PyOut α) (f : PyVal → PyVal → Option (Res α))
    (l r : PyObject) : PyOut α :=
  match l with
  | .big _ => if iname ∈ names then g l r else pyBinary f l r
  | _ => pyBinary f l r

/-- The object that an operator returns. -/
def pyWrap : BigInt ⊕ Int → PyObject
  | .inl a => .big a
  | .inr z => .int ⟨z, decide (z = 0), by simp⟩

/-- `l + r`, two `int`s included. -/
def pyAdd (l r : PyObject) : PyOut PyObject :=
  match l, r with
  | .int m, .int n => .value (pyWrap (.inr (m.value + n.value)))
  | l, r =>
    match pyBinary (PyOp.eval .add) l r with
    | .value v => .value (pyWrap v)
    | .raises e => .raises e
    | .elsewhere => .elsewhere
    | .cpp (.ub u) => .cpp (.ub u)
    | .cpp .abort => .cpp .abort
    | .cpp _ => .cpp .diverge

/-- Python's `sum(items, start)`: `start + items[0] + items[1] + …` from the left. -/
def pySum (start : PyObject) : List PyObject → PyOut PyObject
  | [] => .value start
  | o :: os =>
    match pyAdd start o with
    | .value s => pySum s os
    | r => r

/-- `l == r`, `l < r`, …, two `int`s included. -/
def pyCompare (c : PyCmp) (l r : PyObject) : PyOut Bool :=
  match l, r with
  | .int m, .int n =>
    .value (match c with
      | .lt => m.value < n.value | .le => m.value ≤ n.value | .eq => m.value = n.value
      | .ne => m.value ≠ n.value | .gt => m.value > n.value | .ge => m.value ≥ n.value)
  | l, r => pyBinary c.eval l r

/-- Python's `x in items` for a list or tuple: `item == x` for each, the first true one ends the search (CPython looks at the
identity of the two objects first; here they are distinct objects). -/
def pyIn (x : PyObject) : List PyObject → PyOut Bool
  | [] => .value false
  | o :: os =>
    match pyCompare .eq o x with
    | .value true => .value true
    | .value false => pyIn x os
    | r => r

/-- Python's `max(items)` (`greater`) and `min(items)`: the first item is kept until one is greater (less). -/
def pyExtreme (greater : Bool) (best : PyObject) : List PyObject → PyOut PyObject
  | [] => .value best
  | o :: os =>
    match pyCompare (if greater then .gt else .lt) o best with
    | .value true => pyExtreme greater o os
    | .value false => pyExtreme greater best os
    | .raises e => .raises e
    | .elsewhere => .elsewhere
    | .cpp (.ub u) => .cpp (.ub u)
    | .cpp .abort => .cpp .abort
    | .cpp _ => .cpp .diverge

end BigIntegerCpp
