import Verif.Model.Program
/-
The programs of Model/Program.lean when memory runs out: a request for memory may be refused, the
vector that made it throws `std::bad_alloc`, and the objects stay as the statement had left them.

Which of the writes of a statement come before its last request for memory is what counts here.
`BigInteger` declares no copy or move operations (BigInteger.h:14-202), so the compiler's own handle
the members one by one in the order of their declaration, `_sign` and then `_bits`
(BigInteger.h:187-188).  Assignment from a temporary moves `_bits` and asks for no memory.
Assignment from a named object copies `_bits` and may ask for memory when `_sign` has already been
written.
-/
namespace BigIntegerCpp
variable [Cfg]

/-- How code ends: as in the model without refusals, or with `std::bad_alloc`. -/
inductive Out (α : Type) where
  | res (r : Res α)
  | noMemory
  deriving Repr

/-- Which of the requests for memory that are still to come will be refused, in their order. -/
abbrev Refusals := Nat → Bool
/-- Those after the next one. -/
def Refusals.later (f : Refusals) : Refusals := fun n => f (n + 1)

/-- Code that reads and writes objects and asks for memory. -/
abbrev MCmd (α : Type) := Refusals → Store → Out α × Refusals × Store

namespace MCmd
/-- Code that touches no object and asks for no memory. -/
def lift {α : Type} (r : Res α) : MCmd α := fun f σ => (.res r, f, σ)
def read (i : Nat) : MCmd BigInt := fun f σ => (.res (.ok (σ i)), f, σ)
/-- Initialisation and assignment from a temporary (the implicit move assignment): asks for no
memory. -/
def write (i : Nat) (v : BigInt) : MCmd Unit := fun f σ => (.res (.ok ()), f, σ.set i v)
/-- A request for memory. -/
def request : MCmd Unit := fun f σ => (if f 0 then .noMemory else .res (.ok ()), f.later, σ)
/-- Sequencing: anything but a normal return ends the run, in the store it has reached. -/
def bind {α β : Type} (m : MCmd α) (k : α → MCmd β) : MCmd β := fun f σ =>
  match m f σ with
  | (.res (.ok a), f', σ') => k a f' σ'
  | (.res (.throw e), f', σ') => (.res (.throw e), f', σ')
  | (.res .abort, f', σ') => (.res .abort, f', σ')
  | (.res (.ub u), f', σ') => (.res (.ub u), f', σ')
  | (.res .diverge, f', σ') => (.res .diverge, f', σ')
  | (.noMemory, f', σ') => (.noMemory, f', σ')
instance : Monad MCmd where
  pure a := fun f σ => (.res (.ok a), f, σ)
  bind := bind

/-- The evaluation of an expression that writes only local variables and temporaries.  Simplified:
it may ask for memory many times and in the middle, but as nothing it writes outlives it, it makes
no difference which of the requests is refused, and one stands for all.  (Evaluations that happen to
ask for none are not singled out, except below.) -/
def compute {α : Type} (r : Res α) : MCmd α := do request; lift r

/-- BigInteger.h:187-188, the implicit copy assignment `x = v` from a named object: `_sign` is
assigned, then `_bits`.  The assignment of a vector asks for memory only if the elements do not fit
the capacity, which is at least the number of elements it has; on a refusal it throws and leaves the
vector as it was. -/
def copyAssign (x : Nat) (v : BigInt) : MCmd Unit := do
  let a ← read x
  write x ⟨v.sign, a.bits⟩
  if a.bits.length < v.bits.length then do
    request
    write x v
  else write x v

/-- BigInteger.cpp:25-33 `BigInteger(int32_t)`: only for `INT_MIN` is there a vector to copy. -/
def ofInt (n : Int) : MCmd BigInt := if n = -2147483648 then compute (ofInt32 n) else lift (ofInt32 n)
end MCmd

open MCmd

/-- BigInteger.cpp:1160-1189 `x |= y`: the one compound operator that assigns to `*this` from a named
object that may have a vector (line 1163, if `x` is zero).  The others assign from a temporary, or
from `s_bnZeroInt` and `s_bnMinusOneInt` (lines 696, 710, 1067), which have no vector to copy. -/
def orAssign (x y : Nat) : MCmd Unit := do
  let lhs ← compute (.ok (← read x))
  if ← lift lhs.isZero then copyAssign x (← read y)
  else do write x (← compute (BigInt.or lhs (← read y)))

/-- BigInteger.cpp:582-624 `div_rem(dividend, divisor, remainder)` on objects `i`, `j`, `k`; compare
`divRemAt`.  Lines 586-587 and 612 copy the vectors.  Lines 599 and 613 assign to `remainder` from a named object; lines 609 and 622 ask for
memory after `remainder` has been written. -/
def divRemM (i j k : Nat) : MCmd BigInt := do
  let a ← read i
  let b ← read j
  lift (assertValid a)
  lift (assertValid b)
  if a.bits = [] ∧ b.bits = [] then
    if b.sign = 0 then lift (.throw .divideByZero)
    else do
      let _ ← lift (int (a.sign.tdiv b.sign))
      let r ← ofInt (a.sign.tmod b.sign)
      write k r
      let a ← read i
      let b ← read j
      if b.sign = 0 then lift (.ub .divByZero)
      else do
        let q ← lift (int (a.sign.tdiv b.sign))
        ofInt q
  else if a.bits = [] then do
    request
    copyAssign k a
    pure zeroInt
  else if b.bits = [] then do
    let s ← lift (cabs b.sign)
    let (bits, rest) ← compute (divideWordRem a.bits s)
    let r ← compute (ofUInt32 (if a.sign < 0 then u32i (-1 * (rest : Int)) else rest))
    write k r
    let a ← read i
    let b ← read j
    compute (ofMagnitude bits (BigInt.signXor a b))
  else if a.bits.length < b.bits.length then do
    request
    copyAssign k a
    pure zeroInt
  else do
    let (bits, rest) ← compute (divideVecRem a.bits b.bits)
    let r ← compute (ofMagnitude rest (a.sign < 0))
    write k r
    let a ← read i
    let b ← read j
    compute (ofMagnitude bits (BigInt.signXor a b))

/-- Executing a statement; compare `Stmt.exec`.  `z = x op y` works on a parameter passed by value and
assigns from the temporary returned (BigInteger.cpp:464-467, 482-485, 537-540, 654-657, 672-675,
1013-1016, 1041-1044, 1103-1106, 1155-1158); so do the unary operators and functions.  `z = x` is the
copy assignment.  `x++` returns a reference to `x` (BigInteger.cpp:639-641), so `z = x++` is an
increment and a copy assignment. -/
def Stmt.execM : Stmt → MCmd Unit
  | const x n => do write x (← ofInt n)
  | update .or x y => orAssign x y
  | update op x y => do write x (← compute (op.apply (← read x) (← read y)))
  | binary op z x y => do write z (← compute (op.apply (← read x) (← read y)))
  | unary .copy z x => do copyAssign z (← read x)
  | unary op z x => do write z (← compute (op.apply (← read x)))
  | shl x n => do write x (← compute ((← read x).shl n))
  | shr x n => do write x (← compute ((← read x).shr n))
  | inc x => do write x (← compute (← read x).inc)
  | dec x => do write x (← compute (← read x).dec)
  | pow z x n => do write z (← compute ((← read x).pow n))
  | divRem z x y r => do write z (← divRemM x y r)
  | long x n => do write x (← compute (ofInt64 n))
  | ulong x n => do write x (← compute (ofUInt64 n))
  | parse x s => do write x (← compute (BigInt.parse s))
  | move x y => do
    let v ← read y
    write x v
    write y v.movedFrom
  | swap x y => do
    let t ← read x
    write x t.movedFrom
    let v ← read y
    write x v
    write y v.movedFrom
    write y t
  | postInc z x => do
    write x (← compute (← read x).inc)
    copyAssign z (← read x)
  | postDec z x => do
    write x (← compute (← read x).dec)
    copyAssign z (← read x)

/-- Conditions ask for no memory: `compare_to`, `equals` and the predicates read the members
(BigInteger.cpp:357-391, 723-758, 779-796). -/
def MCmd.ask (c : Cond) : MCmd Bool := fun f σ => (.res (c.test σ), f, σ)

/-- Executing a program; compare `Prog.exec`.  `catch (...)` catches `std::bad_alloc` too. -/
def Prog.execM : Nat → Prog → MCmd Unit
  | 0, _ => lift .diverge
  | _ + 1, skip => pure ()
  | _ + 1, stmt s => s.execM
  | n + 1, seq p q => do p.execM n; q.execM n
  | n + 1, ifThen c p q => do
    if ← ask c then p.execM n else q.execM n
  | n + 1, whileDo c p => do
    if ← ask c then do p.execM n; (whileDo c p).execM n
    else pure ()
  | n + 1, attempt p => fun f σ =>
    match p.execM n f σ with
    | (.res (.throw _), f', σ') => (.res (.ok ()), f', σ')
    | (.noMemory, f', σ') => (.res (.ok ()), f', σ')
    | r => r

/-- BigInteger.cpp:798-805 `try_parse(s, x)`: `catch (...)` catches `std::bad_alloc` too. -/
def tryParseM (s : List Char) (x : Nat) : MCmd Bool := fun f σ =>
  match (do write x (← compute (BigInt.parse s)) : MCmd Unit) f σ with
  | (.res (.ok ()), f', σ') => (.res (.ok true), f', σ')
  | (.res (.throw _), f', σ') => (.res (.ok false), f', σ')
  | (.noMemory, f', σ') => (.res (.ok false), f', σ')
  | (.res .abort, f', σ') => (.res .abort, f', σ')
  | (.res (.ub u), f', σ') => (.res (.ub u), f', σ')
  | (.res .diverge, f', σ') => (.res .diverge, f', σ')

end BigIntegerCpp
