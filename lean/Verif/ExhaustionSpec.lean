import Verif.Spec
import Verif.GcdSpec
import Verif.ActualSpec
/-
Specification for C71: which statements can be interrupted by a refused request for memory after they
have begun to change an object.  In terms of integers; only the syntax of programs is taken from the
model.
-/
namespace BigIntegerCpp

/-- The number of words that an object of value `z` keeps in its vector. -/
def vectorWords (z : Int) : Nat := if |z| < 2 ^ 31 then 0 else wordCount z.natAbs

/-- The value of an object whose assignment was interrupted: of a value in the `int` range only the
sign of the new value is left, any other value changes at most its sign. -/
def halfAssigned (old new : Int) : Int := if |old| < 2 ^ 31 then new.sign else new.sign * |old|

/-- The statement can end with `std::bad_alloc` and leave an object changed.  `storedRemainder` is what
`div_rem` stores in `remainder` (ActualSpec.lean, C13). -/
def Stmt.MayTear : Stmt → IntStore → Prop
  | unary .copy z x, ρ => vectorWords (ρ z) < vectorWords (ρ x) ∧ halfAssigned (ρ z) (ρ x) ≠ ρ z
  | update .or x y, ρ => ρ x = 0 ∧ 2 ^ 31 ≤ |ρ y|
  | postInc z x, ρ => z ≠ x ∧ vectorWords (ρ z) < vectorWords (ρ x + 1)
  | postDec z x, ρ => z ≠ x ∧ vectorWords (ρ z) < vectorWords (ρ x - 1)
  | divRem _ x y r, ρ => ρ y ≠ 0 ∧ 2 ^ 31 ≤ |ρ x| ∧
      if vectorWords (ρ x) < vectorWords (ρ y) then
        vectorWords (ρ r) < vectorWords (ρ x) ∧ halfAssigned (ρ r) (ρ x) ≠ ρ r
      else storedRemainder (ρ x) (ρ y) ≠ ρ r
  | _, _ => False

/-- Programs that catch nothing. -/
def Prog.CatchFree : Prog → Prop
  | skip => True
  | stmt _ => True
  | seq p q => p.CatchFree ∧ q.CatchFree
  | ifThen _ p q => p.CatchFree ∧ q.CatchFree
  | whileDo _ p => p.CatchFree
  | attempt _ => False

/-- The statement is none of `z = x`, `x |= y`, `z = x++`, `z = x--` and `z = div_rem(x, y, r)`. -/
def Stmt.Atomic : Stmt → Prop
  | unary .copy _ _ => False
  | update .or _ _ => False
  | postInc _ _ => False
  | postDec _ _ => False
  | divRem _ _ _ _ => False
  | _ => True

/-- All statements are. -/
def Prog.Atomic : Prog → Prop
  | skip => True
  | stmt s => s.Atomic
  | seq p q => p.Atomic ∧ q.Atomic
  | ifThen _ p q => p.Atomic ∧ q.Atomic
  | whileDo _ p => p.Atomic
  | attempt p => p.Atomic

end BigIntegerCpp
