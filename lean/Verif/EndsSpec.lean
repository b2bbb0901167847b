import Verif.Model.Program
/-
Specification for C59: how a call may end.
-/
namespace BigIntegerCpp

/-- The call comes to an end: it returns, throws, fails an assertion or has undefined behaviour, but
does not run for ever.  And if an exception leaves it, the exception is one of `E`. -/
def Res.Only {α : Type} (r : Res α) (E : List Exn) : Prop := r ≠ .diverge ∧ ∀ e, r = .throw e → e ∈ E

/-- The program contains no loop. -/
def Prog.LoopFree : Prog → Prop
  | skip => True
  | stmt _ => True
  | seq p q => p.LoopFree ∧ q.LoopFree
  | ifThen _ p q => p.LoopFree ∧ q.LoopFree
  | whileDo _ _ => False
  | attempt p => p.LoopFree

end BigIntegerCpp
