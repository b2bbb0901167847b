import Verif.ProgramSpec
/-
What the programs of Model/Program.lean really do, faults included, in terms of plain integers.
This is a description of the code, not of what it should do (that is ProgramSpec.lean); it says for
each statement which integers its objects stand for afterwards.
-/
namespace BigIntegerCpp

/-- How code can end. -/
inductive Ending
  | normal
  | exception (e : Exn)
  | undefined
  deriving DecidableEq

open Classical in
/-- `x >> n` for `n ≥ 0`: the floor of `x / 2^n`, but 0 on the misfiring arguments (C22). -/
noncomputable def shrActual (x : Int) (n : Nat) : Int := if ShiftMisfires x n then 0 else x / 2 ^ n

/-- What `div_rem` stores as the remainder (C13). -/
def storedRemainder (x y : Int) : Int :=
  if 2 ^ 31 ≤ |x| ∧ |y| < 2 ^ 31 ∧ x.tmod y < 0 then x.tmod y + 2 ^ 32 else x.tmod y

/-- `z = div_rem(x, y, r)` for a divisor other than zero, by which of the objects are the same
(C14). -/
def divRemActual (z x y r : Nat) (ρ : IntStore) : Ending × IntStore :=
  let a := ρ x
  let b := ρ y
  let small := |a| < 2 ^ 31 ∧ |b| < 2 ^ 31
  if r = x then
    if r = y then
      if small then (.undefined, ρ) else (.normal, (ρ.set r 0).set z 1)
    else (.normal, (ρ.set r (storedRemainder a b)).set z (quotientOverDividend a b))
  else if r = y then
    if small then
      if b ∣ a then (.undefined, ρ) else (.normal, (ρ.set r (a.tmod b)).set z (a.tdiv (a.tmod b)))
    else (.normal, (ρ.set r (storedRemainder a b)).set z (quotientOverDivisor a b))
  else (.normal, (ρ.set r (storedRemainder a b)).set z (a.tdiv b))

/-- One statement. -/
noncomputable def Stmt.actual : Stmt → IntStore → Ending × IntStore
  | const x n, ρ => (.normal, ρ.set x n)
  | update op x y, ρ => match op.meaning (ρ x) (ρ y) with
    | .ok v => (.normal, ρ.set x v)
    | .error e => (.exception e, ρ)
  | binary op z x y, ρ => match op.meaning (ρ x) (ρ y) with
    | .ok v => (.normal, ρ.set z v)
    | .error e => (.exception e, ρ)
  | unary op z x, ρ => (.normal, ρ.set z (op.meaning (ρ x)))
  | shl x n, ρ => (.normal, ρ.set x (
      if 0 ≤ n then ρ x * 2 ^ n.toNat
      else if n = -2 ^ 31 then ρ x / 2 ^ (2 ^ 31)
      else shrActual (ρ x) (-n).toNat))
  | shr x n, ρ => (.normal, ρ.set x (if 0 ≤ n then shrActual (ρ x) n.toNat else ρ x * 2 ^ (-n).toNat))
  | inc x, ρ => (.normal, ρ.set x (ρ x + 1))
  | dec x, ρ => (.normal, ρ.set x (ρ x - 1))
  | pow z x n, ρ => if n < 0 then (.exception .outOfRange, ρ) else (.normal, ρ.set z (ρ x ^ n.toNat))
  | divRem z x y r, ρ => if ρ y = 0 then (.exception .divideByZero, ρ) else divRemActual z x y r ρ
  | long x n, ρ => if n = -2 ^ 63 then (.undefined, ρ) else (.normal, ρ.set x n)
  | ulong x n, ρ => (.normal, ρ.set x n)
  | parse x s, ρ => (.normal, ρ.set x (textValue s))
  | move x y, ρ => (.normal, (ρ.set x (ρ y)).set y (leftBehind (ρ y)))
  | swap x y, ρ => (.normal, (ρ.set x (ρ y)).set y (ρ x))
  | postInc z x, ρ => (.normal, (ρ.set x (ρ x + 1)).set z (ρ x + 1))
  | postDec z x, ρ => (.normal, (ρ.set x (ρ x - 1)).set z (ρ x - 1))

/-- The literals of a statement are of the right C++ type (a text: of less than `2^34` characters). -/
def Stmt.Literals : Stmt → Prop
  | const _ n => IntRange n
  | shl _ n => IntRange n
  | shr _ n => IntRange n
  | pow _ _ n => IntRange n
  | long _ n => LongRange n
  | ulong _ n => n < 2 ^ 64
  | parse _ s => s.length < 2 ^ 34
  | _ => True

/-- `Does p ρ o ρ'`: started with objects that stand for `ρ`, the program ends in the way `o`, with
objects that stand for `ρ'`; all values are in range on the way.  If `o` is `undefined`, `ρ'` means
nothing.  No statement is excluded. -/
inductive Does : Prog → IntStore → Ending → IntStore → Prop
  | skip (ρ) : Does .skip ρ .normal ρ
  | stmt (s ρ) : (∀ i, InRange (ρ i)) → s.Literals → (∀ i, InRange ((s.actual ρ).2 i)) →
      Does (.stmt s) ρ (s.actual ρ).1 (s.actual ρ).2
  | seq (p q ρ ρ' ρ'' o) : Does p ρ .normal ρ' → Does q ρ' o ρ'' → Does (.seq p q) ρ o ρ''
  | seqEnd (p q ρ ρ' o) : Does p ρ o ρ' → o ≠ .normal → Does (.seq p q) ρ o ρ'
  | ifTrue (c p q ρ ρ' o) : (∀ i, InRange (ρ i)) → c.Holds ρ → Does p ρ o ρ' → Does (.ifThen c p q) ρ o ρ'
  | ifFalse (c p q ρ ρ' o) : (∀ i, InRange (ρ i)) → ¬ c.Holds ρ → Does q ρ o ρ' → Does (.ifThen c p q) ρ o ρ'
  | whileTrue (c p ρ ρ' ρ'' o) : (∀ i, InRange (ρ i)) → c.Holds ρ → Does p ρ .normal ρ' → Does (.whileDo c p) ρ' o ρ'' →
      Does (.whileDo c p) ρ o ρ''
  | whileEnd (c p ρ ρ' o) : (∀ i, InRange (ρ i)) → c.Holds ρ → Does p ρ o ρ' → o ≠ .normal →
      Does (.whileDo c p) ρ o ρ'
  | whileFalse (c p ρ) : (∀ i, InRange (ρ i)) → ¬ c.Holds ρ → Does (.whileDo c p) ρ .normal ρ
  | attempt (p ρ ρ' o) : Does p ρ o ρ' → o ≠ .undefined → Does (.attempt p) ρ .normal ρ'
  | attemptUndefined (p ρ ρ') : Does p ρ .undefined ρ' → Does (.attempt p) ρ .undefined ρ'

/-- The outcome `r`, with the objects `σ`, is the one described by `o` and `ρ`. -/
def Ending.Matches : Ending → IntStore → Res Unit → Store → Prop
  | normal, ρ, r, σ => r = .ok () ∧ σ.Shows ρ
  | exception e, ρ, r, σ => r = .throw e ∧ σ.Shows ρ
  | undefined, _, r, _ => ∃ u, r = .ub u

/-- The endings of the integer programs of ProgramSpec.lean. -/
def ending : Option Exn → Ending
  | none => .normal
  | some e => .exception e

/-- All literals of the program are of the right C++ type. -/
def Prog.Literals : Prog → Prop
  | skip => True
  | stmt s => s.Literals
  | seq p q => p.Literals ∧ q.Literals
  | ifThen _ p q => p.Literals ∧ q.Literals
  | whileDo _ p => p.Literals
  | attempt p => p.Literals

/-- `Leaves p ρ`: the program, started with `ρ`, comes to a statement that produces a value out of
range. -/
inductive Leaves : Prog → IntStore → Prop
  | stmt (s ρ i) : ¬ InRange ((s.actual ρ).2 i) → Leaves (.stmt s) ρ
  | first (p q ρ) : Leaves p ρ → Leaves (.seq p q) ρ
  | second (p q ρ ρ') : Does p ρ .normal ρ' → Leaves q ρ' → Leaves (.seq p q) ρ
  | ifTrue (c p q ρ) : c.Holds ρ → Leaves p ρ → Leaves (.ifThen c p q) ρ
  | ifFalse (c p q ρ) : ¬ c.Holds ρ → Leaves q ρ → Leaves (.ifThen c p q) ρ
  | body (c p ρ) : c.Holds ρ → Leaves p ρ → Leaves (.whileDo c p) ρ
  | again (c p ρ ρ') : c.Holds ρ → Does p ρ .normal ρ' → Leaves (.whileDo c p) ρ' → Leaves (.whileDo c p) ρ
  | attempt (p ρ) : Leaves p ρ → Leaves (.attempt p) ρ

end BigIntegerCpp
