import Verif.Model.Bits
import Verif.Model.Pow
import Verif.Model.Text
/-
Programs over named `BigInteger` objects: the compound operators with their operands passed by
reference, so that one object can play several roles, `div_rem` with its out-parameter, and
exceptions.

Every compound operator writes `*this` exactly once, by an assignment whose right-hand side has
been computed completely (BigInteger.cpp:469-480, 487-531, 542-580, 659-670, 677-717, 937-977,
1018-1039, 1046-1101, 1108-1133, 1160-1189), and reads no operand after that.  So `x op= y` is
modelled as one write of the value computed from the values of `x` and `y` before the statement.
`div_rem` is the one function that reads its operands again after a write; it is modelled
statement by statement.
-/
namespace BigIntegerCpp
variable [Cfg]

/-- The objects of a program, by number. -/
abbrev Store := Nat → BigInt

/-- Assignment to object `i`. -/
def Store.set (σ : Store) (i : Nat) (v : BigInt) : Store := fun j => if j = i then v else σ j

/-- Code that reads and writes objects; the store survives an exception. -/
abbrev Cmd (α : Type) := Store → Res α × Store

namespace Cmd
/-- Code that touches no object. -/
def lift {α : Type} (r : Res α) : Cmd α := fun σ => (r, σ)
def read (i : Nat) : Cmd BigInt := fun σ => (.ok (σ i), σ)
def write (i : Nat) (v : BigInt) : Cmd Unit := fun σ => (.ok (), σ.set i v)
/-- Sequencing: anything but a normal return ends the run, in the store it has reached. -/
def bind {α β : Type} (m : Cmd α) (f : α → Cmd β) : Cmd β := fun σ =>
  match m σ with
  | (.ok a, σ') => f a σ'
  | (.throw e, σ') => (.throw e, σ')
  | (.abort, σ') => (.abort, σ')
  | (.ub u, σ') => (.ub u, σ')
  | (.diverge, σ') => (.diverge, σ')
instance : Monad Cmd where
  pure a := fun σ => (.ok a, σ)
  bind := bind
end Cmd

open Cmd in
/-- BigInteger.cpp:582-624 `div_rem(dividend, divisor, remainder)` on objects `i`, `j`, `k`, which
may coincide.  After the assignment to `remainder` (lines 592, 608, 621) the signs of the operands
are read again (lines 593, 609, 622).  The copies `rbits`, `lbits` made before are not affected. -/
def divRemAt (i j k : Nat) : Cmd BigInt := do
  let a ← read i
  let b ← read j
  lift (assertValid a)
  lift (assertValid b)
  if a.bits = [] ∧ b.bits = [] then
    if b.sign = 0 then lift (.throw .divideByZero)
    else do
      let _ ← lift (int (a.sign.tdiv b.sign))
      let r ← lift (ofInt32 (a.sign.tmod b.sign))
      write k r
      let a ← read i
      let b ← read j
      if b.sign = 0 then lift (.ub .divByZero)
      else do
        let q ← lift (int (a.sign.tdiv b.sign))
        lift (ofInt32 q)
  else if a.bits = [] then do
    write k a
    pure zeroInt
  else if b.bits = [] then do
    let s ← lift (cabs b.sign)
    let (bits, rest) ← lift (divideWordRem a.bits s)
    let r ← lift (ofUInt32 (if a.sign < 0 then u32i (-1 * (rest : Int)) else rest))
    write k r
    let a ← read i
    let b ← read j
    lift (ofMagnitude bits (BigInt.signXor a b))
  else if a.bits.length < b.bits.length then do
    write k a
    pure zeroInt
  else do
    let (bits, rest) ← lift (divideVecRem a.bits b.bits)
    let r ← lift (ofMagnitude rest (a.sign < 0))
    write k r
    let a ← read i
    let b ← read j
    lift (ofMagnitude bits (BigInt.signXor a b))

/-- Binary operators. -/
inductive BinOp
  | add | sub | mul | div | rem | and | or | xor
  deriving DecidableEq, Repr

/-- The operator applied to two values; see the definitions cited. -/
def BinOp.apply : BinOp → BigInt → BigInt → Res BigInt
  | add => BigInt.add
  | sub => BigInt.sub
  | mul => BigInt.mul
  | div => BigInt.div
  | rem => BigInt.rem
  | and => BigInt.and
  | or => BigInt.or
  | xor => BigInt.xor

/-- Unary functions. -/
inductive UnOp
  | copy | neg | plus | compl | abs
  deriving DecidableEq, Repr

def UnOp.apply : UnOp → BigInt → Res BigInt
  | copy => .ok
  | neg => BigInt.neg
  | plus => BigInt.plus
  | compl => BigInt.compl
  | abs => BigInt.abs

/-- One statement of a program; `x y z …` are object numbers. -/
inductive Stmt
  /-- `x = n;` for an `int` `n` -/
  | const (x : Nat) (n : Int)
  /-- `x op= y;` -/
  | update (op : BinOp) (x y : Nat)
  /-- `z = x op y;` -/
  | binary (op : BinOp) (z x y : Nat)
  /-- `z = op x;` -/
  | unary (op : UnOp) (z x : Nat)
  /-- `x <<= n;` -/
  | shl (x : Nat) (n : Int)
  /-- `x >>= n;` -/
  | shr (x : Nat) (n : Int)
  /-- `++x;` or `x++;`, the result not used -/
  | inc (x : Nat)
  /-- `--x;` or `x--;`, the result not used -/
  | dec (x : Nat)
  /-- `z = pow(x, n);` -/
  | pow (z x : Nat) (n : Int)
  /-- `z = div_rem(x, y, r);` -/
  | divRem (z x y r : Nat)
  /-- `x = BigInteger(n);` for an `int64_t` `n` -/
  | long (x : Nat) (n : Int)
  /-- `x = BigInteger(n);` for a `uint64_t` `n` -/
  | ulong (x : Nat) (n : Nat)
  /-- `x = BigInteger::parse(s);` -/
  | parse (x : Nat) (s : List Char)
  /-- `x = std::move(y);` -/
  | move (x y : Nat)
  /-- `std::swap(x, y);` -/
  | swap (x y : Nat)
  /-- `z = x++;` -/
  | postInc (z x : Nat)
  /-- `z = x--;` -/
  | postDec (z x : Nat)
  deriving DecidableEq, Repr

/-- The value an object is left with after something was moved out of it: the class declares no
move operations (BigInteger.h:14-202), so the compiler's own move the members (BigInteger.h:187-188)
one by one; `_sign` keeps its value and `_bits` is left empty.  That a vector is left empty by a move
is how libstdc++ and libc++ work; the standard says it for the move constructor only. -/
def BigInt.movedFrom (a : BigInt) : BigInt := ⟨a.sign, []⟩

open Cmd in
/-- Executing a statement. -/
def Stmt.exec : Stmt → Cmd Unit
  | const x n => do write x (← lift (ofInt32 n))
  | update op x y => do write x (← lift (op.apply (← read x) (← read y)))
  | binary op z x y => do write z (← lift (op.apply (← read x) (← read y)))
  | unary op z x => do write z (← lift (op.apply (← read x)))
  | shl x n => do write x (← lift ((← read x).shl n))
  | shr x n => do write x (← lift ((← read x).shr n))
  | inc x => do write x (← lift (← read x).inc)
  | dec x => do write x (← lift (← read x).dec)
  | pow z x n => do write z (← lift ((← read x).pow n))
  | divRem z x y r => do write z (← divRemAt x y r)
  | long x n => do write x (← lift (ofInt64 n))
  | ulong x n => do write x (← lift (ofUInt64 n))
  | parse x s => do write x (← lift (BigInt.parse s))
  | move x y => do
    let v ← read y
    write x v
    write y v.movedFrom
  | swap x y => do
    let t ← read x
    write x t.movedFrom
    let v ← read y
    write x v
    write y v.movedFrom
    write y t
  | postInc z x => do
    let (obj, ret) ← lift (← read x).postInc
    write x obj
    write z ret
  | postDec z x => do
    let (obj, ret) ← lift (← read x).postDec
    write x obj
    write z ret

/-- Relational operators. -/
inductive Rel
  | lt | le | gt | ge | eq | ne
  deriving DecidableEq, Repr

/-- The operator applied to two values; see the definitions cited. -/
def Rel.apply : Rel → BigInt → BigInt → Res Bool
  | lt => BigInt.lt
  | le => BigInt.le
  | gt => BigInt.gt
  | ge => BigInt.ge
  | eq => BigInt.equals
  | ne => BigInt.ne

/-- Conditions of branches and loops. -/
inductive Cond
  /-- `x < y`, `x == y` and so on -/
  | rel (op : Rel) (x y : Nat)
  /-- `x.is_zero()` -/
  | isZero (x : Nat)
  /-- `x.is_one()` -/
  | isOne (x : Nat)
  /-- `x.is_even()` -/
  | isEven (x : Nat)
  /-- `x.is_power_of_two()` -/
  | isPowerOfTwo (x : Nat)
  /-- `!c` -/
  | not (c : Cond)
  /-- `c && d` -/
  | and (c d : Cond)
  /-- `c || d` -/
  | or (c d : Cond)
  deriving DecidableEq, Repr

/-- The value of a condition; see the definitions cited.  The second operand of `&&` and `||` is
evaluated only if the first does not decide. -/
def Cond.test : Cond → Store → Res Bool
  | rel op x y, σ => op.apply (σ x) (σ y)
  | isZero x, σ => (σ x).isZero
  | isOne x, σ => (σ x).isOne
  | isEven x, σ => (σ x).isEven
  | isPowerOfTwo x, σ => (σ x).isPowerOfTwo
  | not c, σ => do let b ← c.test σ; .ok !b
  | and c d, σ => do
    let b ← c.test σ
    if b then d.test σ else .ok false
  | or c d, σ => do
    let b ← c.test σ
    if b then .ok true else d.test σ

/-- Evaluating a condition changes no object. -/
def Cmd.ask (c : Cond) : Cmd Bool := fun σ => (c.test σ, σ)

/-- Programs: statements, sequence, branches and loops, and `try { p } catch (...) {}`. -/
inductive Prog
  | skip
  | stmt (s : Stmt)
  | seq (p q : Prog)
  | ifThen (c : Cond) (p q : Prog)
  | whileDo (c : Cond) (p : Prog)
  | attempt (p : Prog)
  deriving DecidableEq, Repr

open Cmd in
/-- Executing a program; the first argument bounds the depth of the execution (`.diverge` when it
is reached). -/
def Prog.exec : Nat → Prog → Cmd Unit
  | 0, _ => lift .diverge
  | _ + 1, skip => pure ()
  | _ + 1, stmt s => s.exec
  | n + 1, seq p q => do p.exec n; q.exec n
  | n + 1, ifThen c p q => do
    if ← ask c then p.exec n else q.exec n
  | n + 1, whileDo c p => do
    if ← ask c then do p.exec n; (whileDo c p).exec n
    else pure ()
  | n + 1, attempt p => fun σ =>
    match p.exec n σ with
    | (.throw _, σ') => (.ok (), σ')
    | r => r

end BigIntegerCpp
