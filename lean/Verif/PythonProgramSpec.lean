import Verif.PythonFormulaSpec
import Verif.Model.PythonProgram
/-
What a Python program computes on integers.  From the model only the syntax of programs is used.
-/
namespace BigIntegerCpp

/-- The truth value of a condition when all variables are `int`s; nothing if it raises an exception. -/
def PyTest.plain (x : Nat → Int) : PyTest → Option Bool
  | cmp c l r => do some (decide (c.meaning (← l.plain x) (← r.plain x)))
  | truth e => do some (decide ((← e.plain x) ≠ 0))

/-- What the program does in `n` steps when all variables are `int`s: nothing if it has not ended, `some none` if it ended with an
exception, else the values of the variables. -/
def PyStmt.plain : Nat → PyStmt → (Nat → Int) → Option (Option (Nat → Int))
  | 0, _, _ => none
  | _ + 1, skip, x => some (some x)
  | _ + 1, assign i e, x => some ((e.plain x).map fun z j => if j = i then z else x j)
  | n + 1, seq a b, x =>
    match a.plain n x with
    | some (some x') => b.plain n x'
    | out => out
  | n + 1, ite t a b, x =>
    match t.plain x with
    | some true => a.plain n x
    | some false => b.plain n x
    | none => some none
  | n + 1, loop t b, x =>
    match t.plain x with
    | some true =>
      match b.plain n x with
      | some (some x') => (loop t b).plain n x'
      | out => out
    | some false => some (some x)
    | none => some none

/-- Every value in the formula is in the range of `BigInteger`. -/
def PyFormula.InBounds (x : Nat → Int) : PyFormula → Prop
  | arg i => InRange (x i)
  | un o e => e.InBounds x ∧ ∀ z, (un o e).plain x = some z → InRange z
  | bin o l r => l.InBounds x ∧ r.InBounds x ∧ ∀ z, (bin o l r).plain x = some z → InRange z

/-- The values are in range, and no division leaves a remainder with operands of opposite signs. -/
def PyFormula.Safe (x : Nat → Int) (f : PyFormula) : Prop := f.InBounds x ∧ f.Straight x

/-- A zero is not taken for its truth value. -/
def PyTest.Safe (x : Nat → Int) : PyTest → Prop
  | cmp _ l r => l.Safe x ∧ r.Safe x
  | truth e => e.Safe x ∧ e.plain x ≠ some 0

/-- All formulas and conditions that the program, run on `int`s, comes to within `n` steps are safe. -/
def PyStmt.Safe : Nat → PyStmt → (Nat → Int) → Prop
  | 0, _, _ => True
  | _ + 1, skip, _ => True
  | _ + 1, assign _ e, x => e.Safe x
  | n + 1, seq a b, x => a.Safe n x ∧ ∀ x', a.plain n x = some (some x') → b.Safe n x'
  | n + 1, ite t a b, x => t.Safe x ∧ (t.plain x = some true → a.Safe n x) ∧ (t.plain x = some false → b.Safe n x)
  | n + 1, loop t b, x => t.Safe x ∧ (t.plain x = some true → b.Safe n x ∧ ∀ x', b.plain n x = some (some x') → (loop t b).Safe n x')

/-- The two executions agree: both have not ended, both have ended with an exception for a zero divisor, or both have ended with
variables of the same values. -/
def Agrees : Option (PyOut (Nat → PyObject)) → Option (Option (Nat → Int)) → Prop
  | none, none => True
  | some out, some none => out = .raises .runtimeError ∨ out = .raises .zeroDivisionError
  | some out, some (some x) => ∃ env, out = .value env ∧ ∀ i, (env i).Stands (x i)
  | _, _ => False

/-! ### With the types -/

/-- The variables with the types of their objects (`big`: a `BigInteger`, else an `int`) and their values. -/
structure PyStore where
  big : Nat → Bool
  val : Nat → Int

def PyStore.set (σ : PyStore) (i : Nat) (b : Bool) (z : Int) : PyStore :=
  ⟨fun j => if j = i then b else σ.big j, fun j => if j = i then z else σ.val j⟩

/-- A `BigInteger` is always true. -/
def PyTest.typed (σ : PyStore) : PyTest → Except PyExc Bool
  | cmp c l r =>
    match l.mixed σ.big σ.val with
    | .error e => .error e
    | .ok u =>
      match r.mixed σ.big σ.val with
      | .error e => .error e
      | .ok v => .ok (decide (c.meaning u v))
  | truth e =>
    match e.mixed σ.big σ.val with
    | .error ex => .error ex
    | .ok u => .ok (σ.big e.leftmost || decide (u ≠ 0))

/-- What the program does in `n` steps, with the values of formulas as in C95. -/
def PyStmt.typed : Nat → PyStmt → PyStore → Option (Except PyExc PyStore)
  | 0, _, _ => none
  | _ + 1, skip, σ => some (.ok σ)
  | _ + 1, assign i e, σ =>
    match e.mixed σ.big σ.val with
    | .error ex => some (.error ex)
    | .ok z => some (.ok (σ.set i (σ.big e.leftmost) z))
  | n + 1, seq a b, σ =>
    match a.typed n σ with
    | some (.ok σ') => b.typed n σ'
    | out => out
  | n + 1, ite t a b, σ =>
    match t.typed σ with
    | .ok true => a.typed n σ
    | .ok false => b.typed n σ
    | .error ex => some (.error ex)
  | n + 1, loop t b, σ =>
    match t.typed σ with
    | .ok true =>
      match b.typed n σ with
      | some (.ok σ') => (loop t b).typed n σ'
      | out => out
    | .ok false => some (.ok σ)
    | .error ex => some (.error ex)

def PyTest.Bounded (σ : PyStore) : PyTest → Prop
  | cmp _ l r => l.Bounded σ.big σ.val ∧ r.Bounded σ.big σ.val
  | truth e => e.Bounded σ.big σ.val

/-- All values that the program comes to within `n` steps are in the range of `BigInteger`. -/
def PyStmt.Bounded : Nat → PyStmt → PyStore → Prop
  | 0, _, _ => True
  | _ + 1, skip, _ => True
  | _ + 1, assign _ e, σ => e.Bounded σ.big σ.val
  | n + 1, seq a b, σ => a.Bounded n σ ∧ ∀ σ', a.typed n σ = some (.ok σ') → b.Bounded n σ'
  | n + 1, ite t a b, σ => t.Bounded σ ∧ (t.typed σ = .ok true → a.Bounded n σ) ∧ (t.typed σ = .ok false → b.Bounded n σ)
  | n + 1, loop t b, σ => t.Bounded σ ∧ (t.typed σ = .ok true → b.Bounded n σ ∧ ∀ σ', b.typed n σ = some (.ok σ') → (loop t b).Bounded n σ')

/-- The objects have these types and values. -/
def PyStore.Holds (σ : PyStore) (env : Nat → PyObject) : Prop := ∀ i, (env i).isBig = σ.big i ∧ (env i).Stands (σ.val i)

/-- The execution is the one described. -/
def Follows : Option (PyOut (Nat → PyObject)) → Option (Except PyExc PyStore) → Prop
  | none, none => True
  | some out, some (.error e) => out = .raises e
  | some out, some (.ok σ) => ∃ env, out = .value env ∧ σ.Holds env
  | _, _ => False

/-- `while x: x = x // m` (variable 0 is `x`, variable 1 is `m`). -/
def halving : PyStmt := .loop (.truth (.arg 0)) (.assign 0 (.bin .floordiv (.arg 0) (.arg 1)))

/-- `while x > z: x = x // m; c = c + i` (variables 0 `x`, 1 `m`, 2 `c`, 3 `z`, 4 `i`). -/
def counting : PyStmt := .loop (.cmp .gt (.arg 0) (.arg 3))
  (.seq (.assign 0 (.bin .floordiv (.arg 0) (.arg 1))) (.assign 2 (.bin .add (.arg 2) (.arg 4))))

/-- `while b != z: t = a % b; a = b; b = t` (variables 0 `a`, 1 `b`, 2 `t`, 3 `z`). -/
def pyEuclid : PyStmt := .loop (.cmp .ne (.arg 1) (.arg 3))
  (.seq (.assign 2 (.bin .mod (.arg 0) (.arg 1))) (.seq (.assign 0 (.arg 1)) (.assign 1 (.arg 2))))

/-- `while e > z: if e % w == i: r = r * b` (then, in any case) `b = b * b; e = e // w` (variables 0 `r`, 1 `b`, 2 `e`, 3 `z`, 4 `i`, 5 `w`). -/
def pyPower : PyStmt := .loop (.cmp .gt (.arg 2) (.arg 3))
  (.seq (.ite (.cmp .eq (.bin .mod (.arg 2) (.arg 5)) (.arg 4)) (.assign 0 (.bin .mul (.arg 0) (.arg 1))) .skip)
    (.seq (.assign 1 (.bin .mul (.arg 1) (.arg 1))) (.assign 2 (.bin .floordiv (.arg 2) (.arg 5)))))

/-- `while y < x: x = y; y = (x + n // x) // w` (variables 0 `n`, 1 `x`, 2 `y`, 3 `w`). -/
def pyNewton : PyStmt := .loop (.cmp .lt (.arg 2) (.arg 1))
  (.seq (.assign 1 (.arg 2)) (.assign 2 (.bin .floordiv (.bin .add (.arg 1) (.bin .floordiv (.arg 0) (.arg 1))) (.arg 3))))

/-- `x = n; y = (x + i) // w`, then `pyNewton` (variable 4 is `i`). -/
def pySqrt : PyStmt := .seq (.assign 1 (.arg 0)) (.seq (.assign 2 (.bin .floordiv (.bin .add (.arg 1) (.arg 4)) (.arg 3))) pyNewton)

/-- `pyPower` with `if e % w: r = r * b`. -/
def pyPowerTruth : PyStmt := .loop (.cmp .gt (.arg 2) (.arg 3))
  (.seq (.ite (.truth (.bin .mod (.arg 2) (.arg 5))) (.assign 0 (.bin .mul (.arg 0) (.arg 1))) .skip)
    (.seq (.assign 1 (.bin .mul (.arg 1) (.arg 1))) (.assign 2 (.bin .floordiv (.arg 2) (.arg 5)))))

end BigIntegerCpp
