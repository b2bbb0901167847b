import Verif.Model.Program
import Mathlib.Data.Int.Bitwise
import Mathlib.Algebra.Order.Group.Unbundled.Int
/-
Integer semantics of the programs of Model/Program.lean: what they should do, with plain integers
in place of `BigInteger` objects.  Only the syntax of programs is taken from the model.
-/
namespace BigIntegerCpp

/-- Integer variables, by number. -/
abbrev IntStore := Nat → Int
def IntStore.set (ρ : IntStore) (i : Nat) (v : Int) : IntStore := fun j => if j = i then v else ρ j

/-- The objects of `σ` stand for the integers of `ρ`. -/
def Store.Shows (σ : Store) (ρ : IntStore) : Prop := ∀ i, (σ i).Denotes (ρ i)

def BinOp.meaning : BinOp → Int → Int → Except Exn Int
  | add, x, y => .ok (x + y)
  | sub, x, y => .ok (x - y)
  | mul, x, y => .ok (x * y)
  | div, x, y => if y = 0 then .error .divideByZero else .ok (x.tdiv y)
  | rem, x, y => if y = 0 then .error .divideByZero else .ok (x.tmod y)
  | and, x, y => .ok (Int.land x y)
  | or, x, y => .ok (Int.lor x y)
  | xor, x, y => .ok (Int.xor x y)

def UnOp.meaning : UnOp → Int → Int
  | copy, x => x
  | neg, x => -x
  | plus, x => x
  | compl, x => -x - 1
  | abs, x => |x|

/-- `x * 2^n`, rounded down for negative `n`. -/
def shiftInt (x n : Int) : Int := if 0 ≤ n then x * 2 ^ n.toNat else x / 2 ^ (-n).toNat

/-- What is left in a variable after something was moved out of it: a value of the `int` range (other
than `INT_MIN`) stays, of any other value the sign. -/
def leftBehind (x : Int) : Int := if |x| < 2 ^ 31 then x else x.sign

/-- One statement.  A statement that throws changes nothing. -/
def Stmt.meaning : Stmt → IntStore → Except Exn IntStore
  | const x n, ρ => .ok (ρ.set x n)
  | update op x y, ρ => (op.meaning (ρ x) (ρ y)).map (ρ.set x)
  | binary op z x y, ρ => (op.meaning (ρ x) (ρ y)).map (ρ.set z)
  | unary op z x, ρ => .ok (ρ.set z (op.meaning (ρ x)))
  | shl x n, ρ => .ok (ρ.set x (shiftInt (ρ x) n))
  | shr x n, ρ => .ok (ρ.set x (shiftInt (ρ x) (-n)))
  | inc x, ρ => .ok (ρ.set x (ρ x + 1))
  | dec x, ρ => .ok (ρ.set x (ρ x - 1))
  | pow z x n, ρ => if n < 0 then .error .outOfRange else .ok (ρ.set z (ρ x ^ n.toNat))
  | divRem z x y r, ρ =>
    if ρ y = 0 then .error .divideByZero
    else .ok ((ρ.set r ((ρ x).tmod (ρ y))).set z ((ρ x).tdiv (ρ y)))
  | long x n, ρ => .ok (ρ.set x n)
  | ulong x n, ρ => .ok (ρ.set x n)
  | parse x s, ρ => .ok (ρ.set x (textValue s))
  | move x y, ρ => .ok ((ρ.set x (ρ y)).set y (leftBehind (ρ y)))
  | swap x y, ρ => .ok ((ρ.set x (ρ y)).set y (ρ x))
  | postInc z x, ρ => .ok ((ρ.set x (ρ x + 1)).set z (ρ x))
  | postDec z x, ρ => .ok ((ρ.set x (ρ x - 1)).set z (ρ x))

def Rel.Holds : Rel → Int → Int → Prop
  | lt, x, y => x < y
  | le, x, y => x ≤ y
  | gt, x, y => x > y
  | ge, x, y => x ≥ y
  | eq, x, y => x = y
  | ne, x, y => x ≠ y

/-- Conditions. -/
def Cond.Holds : Cond → IntStore → Prop
  | rel op x y, ρ => op.Holds (ρ x) (ρ y)
  | isZero x, ρ => ρ x = 0
  | isOne x, ρ => ρ x = 1
  | isEven x, ρ => 2 ∣ ρ x
  | isPowerOfTwo x, ρ => ∃ k : Nat, ρ x = 2 ^ k
  | not c, ρ => ¬ c.Holds ρ
  | and c d, ρ => c.Holds ρ ∧ d.Holds ρ
  | or c d, ρ => c.Holds ρ ∨ d.Holds ρ

/-- A magnitude of fewer than `2^26` words (256 MiB). -/
def InRange (z : Int) : Prop := z.natAbs < 2 ^ (32 * (2 ^ 26 - 1))

/-- What a statement needs beyond that: arguments of the right C++ type (a text of less than `2^34`
characters), and staying clear of the known faults (`>>` by whole words of certain negative values,
C22; `div_rem` with a negative remainder of a large value by a small one, C13, or with `remainder`
one of the operands, C14; construction from `INT64_MIN`; the result of a postfix operator, C61). -/
def Stmt.Safe : Stmt → IntStore → Prop
  | const _ n, _ => IntRange n
  | shl x n, ρ => IntRange n ∧ (n < 0 → ¬ ShiftMisfires (ρ x) (-n).toNat)
  | shr x n, ρ => IntRange n ∧ (0 < n → ¬ ShiftMisfires (ρ x) n.toNat)
  | pow _ _ n, _ => IntRange n
  | divRem _ x y r, ρ => r ≠ x ∧ r ≠ y ∧ ¬ (2 ^ 31 ≤ |ρ x| ∧ |ρ y| < 2 ^ 31 ∧ (ρ x).tmod (ρ y) < 0)
  | long _ n, _ => LongRange n ∧ n ≠ -2 ^ 63
  | ulong _ n, _ => n < 2 ^ 64
  | parse _ s, _ => s.length < 2 ^ 34
  | postInc _ _, _ => False
  | postDec _ _, _ => False
  | _, _ => True

/-- `Runs p ρ o ρ'`: started in `ρ` the integer program ends in `ρ'`, normally (`o = none`) or with
an uncaught exception, all its statements being safe and all its values in range. -/
inductive Runs : Prog → IntStore → Option Exn → IntStore → Prop
  | skip (ρ) : Runs .skip ρ none ρ
  | stmt (s ρ ρ') : (∀ i, InRange (ρ i)) → s.Safe ρ → s.meaning ρ = .ok ρ' → (∀ i, InRange (ρ' i)) →
      Runs (.stmt s) ρ none ρ'
  | stmtThrow (s ρ e) : (∀ i, InRange (ρ i)) → s.Safe ρ → s.meaning ρ = .error e → Runs (.stmt s) ρ (some e) ρ
  | seq (p q ρ ρ' ρ'' o) : Runs p ρ none ρ' → Runs q ρ' o ρ'' → Runs (.seq p q) ρ o ρ''
  | seqThrow (p q ρ ρ' e) : Runs p ρ (some e) ρ' → Runs (.seq p q) ρ (some e) ρ'
  | ifTrue (c p q ρ ρ' o) : (∀ i, InRange (ρ i)) → c.Holds ρ → Runs p ρ o ρ' → Runs (.ifThen c p q) ρ o ρ'
  | ifFalse (c p q ρ ρ' o) : (∀ i, InRange (ρ i)) → ¬ c.Holds ρ → Runs q ρ o ρ' → Runs (.ifThen c p q) ρ o ρ'
  | whileTrue (c p ρ ρ' ρ'' o) : (∀ i, InRange (ρ i)) → c.Holds ρ → Runs p ρ none ρ' → Runs (.whileDo c p) ρ' o ρ'' →
      Runs (.whileDo c p) ρ o ρ''
  | whileThrow (c p ρ ρ' e) : (∀ i, InRange (ρ i)) → c.Holds ρ → Runs p ρ (some e) ρ' →
      Runs (.whileDo c p) ρ (some e) ρ'
  | whileFalse (c p ρ) : (∀ i, InRange (ρ i)) → ¬ c.Holds ρ → Runs (.whileDo c p) ρ none ρ
  | attempt (p ρ ρ' o) : Runs p ρ o ρ' → Runs (.attempt p) ρ none ρ'

/-- How a run ended, in terms of the model. -/
def endsWith : Option Exn → Res Unit
  | none => .ok ()
  | some e => .throw e

/-- Neither undefined behaviour nor an aborted program (nor an endless loop). -/
def Res.Defined {α : Type} : Res α → Prop
  | .ok _ => True
  | .throw _ => True
  | _ => False

/-- `Reaches p σ s τ`: the program `p`, started with the objects `σ`, comes to execute the statement
`s`, and the objects are then `τ`. -/
inductive Reaches [Cfg] : Prog → Store → Stmt → Store → Prop
  | stmt (s σ) : Reaches (.stmt s) σ s σ
  | first {p q σ s τ} : Reaches p σ s τ → Reaches (.seq p q) σ s τ
  | second {p q σ σ' n s τ} : p.exec n σ = (.ok (), σ') → Reaches q σ' s τ → Reaches (.seq p q) σ s τ
  | ifTrue {c p q σ s τ} : c.test σ = .ok true → Reaches p σ s τ → Reaches (.ifThen c p q) σ s τ
  | ifFalse {c p q σ s τ} : c.test σ = .ok false → Reaches q σ s τ → Reaches (.ifThen c p q) σ s τ
  | body {c p σ s τ} : c.test σ = .ok true → Reaches p σ s τ → Reaches (.whileDo c p) σ s τ
  | again {c p σ σ' n s τ} : c.test σ = .ok true → p.exec n σ = (.ok (), σ') → Reaches (.whileDo c p) σ' s τ →
      Reaches (.whileDo c p) σ s τ
  | attempt {p σ s τ} : Reaches p σ s τ → Reaches (.attempt p) σ s τ

/-! What `div_rem` returns when `remainder` is also one of the operands. -/

/-- `div_rem(a, b, a)`. -/
def quotientOverDividend (x y : Int) : Int :=
  if |x| < 2 ^ 31 ∧ |y| < 2 ^ 31 then 0
  else if x < 0 ∧ (|y| < 2 ^ 31 ∨ y ∣ x) then -x.tdiv y
  else x.tdiv y

/-- `div_rem(a, b, b)` for `a`, `b` not both in the `int` range. -/
def quotientOverDivisor (x y : Int) : Int :=
  if |y| < 2 ^ 31 ∨ y ∣ x then x.tdiv |y| else |x| / |y|

end BigIntegerCpp
