import Verif.Model.Threads
/-
The vocabulary of C73: which objects a program names and assigns to, data races.
-/
namespace BigIntegerCpp

/-- The objects a statement assigns to. -/
def Stmt.Writes : Stmt → Nat → Prop
  | const x _, i => i = x
  | update _ x _, i => i = x
  | binary _ z _ _, i => i = z
  | unary _ z _, i => i = z
  | shl x _, i => i = x
  | shr x _, i => i = x
  | inc x, i => i = x
  | dec x, i => i = x
  | pow z _ _, i => i = z
  | divRem z _ _ r, i => i = z ∨ i = r
  | long x _, i => i = x
  | ulong x _, i => i = x
  | parse x _, i => i = x
  | move x y, i => i = x ∨ i = y
  | swap x y, i => i = x ∨ i = y
  | postInc z x, i => i = z ∨ i = x
  | postDec z x, i => i = z ∨ i = x

/-- The objects a statement only reads, in addition. -/
def Stmt.Reads : Stmt → Nat → Prop
  | update _ _ y, i => i = y
  | binary _ _ x y, i => i = x ∨ i = y
  | unary _ _ x, i => i = x
  | pow _ x _, i => i = x
  | divRem _ x y _, i => i = x ∨ i = y
  | _, _ => False

/-- The objects a condition reads. -/
def Cond.Reads : Cond → Nat → Prop
  | rel _ x y, i => i = x ∨ i = y
  | isZero x, i => i = x
  | isOne x, i => i = x
  | isEven x, i => i = x
  | isPowerOfTwo x, i => i = x
  | not c, i => c.Reads i
  | and c d, i => c.Reads i ∨ d.Reads i
  | or c d, i => c.Reads i ∨ d.Reads i

/-- The objects a program assigns to. -/
def Prog.Writes : Prog → Nat → Prop
  | skip, _ => False
  | stmt s, i => s.Writes i
  | seq p q, i => p.Writes i ∨ q.Writes i
  | ifThen _ p q, i => p.Writes i ∨ q.Writes i
  | whileDo _ p, i => p.Writes i
  | attempt p, i => p.Writes i

/-- The objects a program names. -/
def Prog.Names : Prog → Nat → Prop
  | skip, _ => False
  | stmt s, i => s.Writes i ∨ s.Reads i
  | seq p q, i => p.Names i ∨ q.Names i
  | ifThen c p q, i => c.Reads i ∨ p.Names i ∨ q.Names i
  | whileDo c p, i => c.Reads i ∨ p.Names i
  | attempt p, i => p.Names i

/-- No thread assigns to an object that another one names: all they share they only read. -/
def ShareOnlyRead (P : Nat → Prog) : Prop := ∀ t u, t ≠ u → ∀ i, (P t).Writes i → ¬ (P u).Names i

/-- No thread but `t` assigns to an object that `t` names. -/
def Undisturbed (P : Nat → Prog) (t : Nat) : Prop := ∀ u, u ≠ t → ∀ i, (P u).Writes i → ¬ (P t).Names i

/-- Two threads are about to access the same member of the same object, one of them writing. -/
def Race (T : Pool) : Prop :=
  ∃ t u, t ≠ u ∧ ∃ i m w w', (T t).next = some (i, m, w) ∧ (T u).next = some (i, m, w') ∧ (w = true ∨ w' = true)

/-- The threads executing the programs `P`, before their first step. -/
def threads (P : Nat → Prog) : Pool := fun t => (P t).thread

end BigIntegerCpp
