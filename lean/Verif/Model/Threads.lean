import Verif.Model.Program
/-
Several threads over shared objects.  The library has no mutable state besides the objects: its only
variables of static storage duration are constants (BigInteger.cpp:14-17, 1200), no member is `mutable`
(BigInteger.h:187-188), and no function keeps a cache.  So what threads can interfere through are the
two members of the objects they share, and code is modelled as the sequence of its accesses to them.
-/
namespace BigIntegerCpp
variable [Cfg]

/-- Code as the sequence of its accesses to members of objects.  Local variables, temporaries and
parameters passed by value are not shared and do not appear. -/
inductive Act (α : Type) where
  /-- no further access; how the code ends -/
  | done (r : Res α)
  /-- read `_sign` of object `i` -/
  | getSign (i : Nat) (k : Int → Act α)
  /-- read `_bits` of object `i` -/
  | getBits (i : Nat) (k : List Nat → Act α)
  /-- write `_sign` of object `i` -/
  | setSign (i : Nat) (s : Int) (k : Act α)
  /-- write `_bits` of object `i` -/
  | setBits (i : Nat) (ws : List Nat) (k : Act α)

namespace Act
/-- Sequencing: anything but a normal return ends the run. -/
def bind {α β : Type} : Act α → (α → Act β) → Act β
  | done (.ok a), f => f a
  | done (.throw e), _ => done (.throw e)
  | done .abort, _ => done .abort
  | done (.ub u), _ => done (.ub u)
  | done .diverge, _ => done .diverge
  | getSign i k, f => getSign i fun s => (k s).bind f
  | getBits i k, f => getBits i fun ws => (k ws).bind f
  | setSign i s k, f => setSign i s (k.bind f)
  | setBits i ws k, f => setBits i ws (k.bind f)
instance : Monad Act where
  pure a := done (.ok a)
  bind := bind
/-- Code that touches no object. -/
def lift {α : Type} (r : Res α) : Act α := done r
/-- Reading an object.  Simplified: the code reads the members several times (in assertions and
conditions); here a value not written in between is read once.  (If nobody else writes the object, as
in all theorems, that is the same.) -/
def read (i : Nat) : Act BigInt := getSign i fun s => getBits i fun ws => done (.ok ⟨s, ws⟩)
/-- Assignment from a temporary (BigInteger.h:187-188, the implicit move assignment: member by member). -/
def write (i : Nat) (v : BigInt) : Act Unit := setSign i v.sign (setBits i v.bits (done (.ok ())))
/-- `z = x;` (the implicit copy assignment: member by member). -/
def copy (z x : Nat) : Act Unit :=
  getSign x fun s => setSign z s (getBits x fun ws => setBits z ws (done (.ok ())))
/-- `x = std::move(y);` (the implicit move assignment; `_bits` of `y` is left empty). -/
def move (x y : Nat) : Act Unit :=
  getSign y fun s => setSign x s (getBits y fun ws => setBits x ws (setBits y [] (done (.ok ()))))
end Act

open Act in
/-- BigInteger.cpp:582-624 `div_rem(dividend, divisor, remainder)` on objects `i`, `j`, `k`; compare
`divRemAt`. -/
def divRemActs (i j k : Nat) : Act BigInt := do
  let a ← read i
  let b ← read j
  lift (assertValid a)
  lift (assertValid b)
  if a.bits = [] ∧ b.bits = [] then
    if b.sign = 0 then lift (.throw .divideByZero)
    else do
      let _ ← lift (int (a.sign.tdiv b.sign))
      let r ← lift (ofInt32 (a.sign.tmod b.sign))
      write k r
      let a ← read i
      let b ← read j
      if b.sign = 0 then lift (.ub .divByZero)
      else do
        let q ← lift (int (a.sign.tdiv b.sign))
        lift (ofInt32 q)
  else if a.bits = [] then do
    copy k i
    pure zeroInt
  else if b.bits = [] then do
    let s ← lift (cabs b.sign)
    let (bits, rest) ← lift (divideWordRem a.bits s)
    let r ← lift (ofUInt32 (if a.sign < 0 then u32i (-1 * (rest : Int)) else rest))
    write k r
    let a ← read i
    let b ← read j
    lift (ofMagnitude bits (BigInt.signXor a b))
  else if a.bits.length < b.bits.length then do
    copy k i
    pure zeroInt
  else do
    let (bits, rest) ← lift (divideVecRem a.bits b.bits)
    let r ← lift (ofMagnitude rest (a.sign < 0))
    write k r
    let a ← read i
    let b ← read j
    lift (ofMagnitude bits (BigInt.signXor a b))

open Act in
/-- A statement as a sequence of accesses; compare `Stmt.exec`.  `std::swap` is a move construction
and two move assignments. -/
def Stmt.acts : Stmt → Act Unit
  | const x n => do write x (← lift (ofInt32 n))
  | update op x y => do write x (← lift (op.apply (← read x) (← read y)))
  | binary op z x y => do write z (← lift (op.apply (← read x) (← read y)))
  | unary .copy z x => copy z x
  | unary op z x => do write z (← lift (op.apply (← read x)))
  | shl x n => do write x (← lift ((← read x).shl n))
  | shr x n => do write x (← lift ((← read x).shr n))
  | inc x => do write x (← lift (← read x).inc)
  | dec x => do write x (← lift (← read x).dec)
  | pow z x n => do write z (← lift ((← read x).pow n))
  | divRem z x y r => do write z (← divRemActs x y r)
  | long x n => do write x (← lift (ofInt64 n))
  | ulong x n => do write x (← lift (ofUInt64 n))
  | parse x s => do write x (← lift (BigInt.parse s))
  | move x y => Act.move x y
  | swap x y =>
    getSign x fun s => getBits x fun ws => setBits x [] do
      Act.move x y
      write y ⟨s, ws⟩
  | postInc z x => do
    write x (← lift (← read x).inc)
    copy z x
  | postDec z x => do
    write x (← lift (← read x).dec)
    copy z x

open Act in
/-- A condition as a sequence of accesses; compare `Cond.test`. -/
def Cond.acts : Cond → Act Bool
  | rel op x y => do lift (op.apply (← read x) (← read y))
  | isZero x => do lift (← read x).isZero
  | isOne x => do lift (← read x).isOne
  | isEven x => do lift (← read x).isEven
  | isPowerOfTwo x => do lift (← read x).isPowerOfTwo
  | not c => do let b ← c.acts; pure !b
  | and c d => do
    let b ← c.acts
    if b then d.acts else pure false
  | or c d => do
    let b ← c.acts
    if b then pure true else d.acts

/-- What is left to be done after the current code: a program, or the end of a `try` block. -/
inductive Frame
  | thenDo (p : Prog)
  | endTry

/-- A thread: the code it is executing, which ends with the program to go on with, and what is left
to be done after that. -/
structure Thread where
  now : Act Prog
  rest : List Frame

/-- A thread about to execute `p`. -/
def Prog.thread (p : Prog) : Thread := ⟨.done (.ok p), []⟩

/-- The first code of a program. -/
def Prog.enter : Prog → List Frame → Thread
  | skip, fs => ⟨.done (.ok .skip), fs⟩
  | stmt s, fs => ⟨s.acts >>= fun _ => pure .skip, fs⟩
  | seq p q, fs => ⟨.done (.ok p), .thenDo q :: fs⟩
  | ifThen c p q, fs => ⟨c.acts >>= fun b => pure (if b then p else q), fs⟩
  | whileDo c p, fs => ⟨c.acts >>= fun b => pure (if b then .seq p (.whileDo c p) else .skip), fs⟩
  | attempt p, fs => ⟨.done (.ok p), .endTry :: fs⟩

/-- One step of a thread: one access to a member of an object, or a step of control.  A thread that
has come to its end stays as it is. -/
def Thread.step : Thread → Store → Thread × Store
  | ⟨.getSign i k, fs⟩, σ => (⟨k (σ i).sign, fs⟩, σ)
  | ⟨.getBits i k, fs⟩, σ => (⟨k (σ i).bits, fs⟩, σ)
  | ⟨.setSign i s k, fs⟩, σ => (⟨k, fs⟩, σ.set i ⟨s, (σ i).bits⟩)
  | ⟨.setBits i ws k, fs⟩, σ => (⟨k, fs⟩, σ.set i ⟨(σ i).sign, ws⟩)
  | ⟨.done (.ok .skip), .thenDo p :: fs⟩, σ => (⟨.done (.ok p), fs⟩, σ)
  | ⟨.done (.ok .skip), .endTry :: fs⟩, σ => (⟨.done (.ok .skip), fs⟩, σ)
  | ⟨.done (.ok .skip), []⟩, σ => (⟨.done (.ok .skip), []⟩, σ)
  | ⟨.done (.ok p), fs⟩, σ => (p.enter fs, σ)
  | ⟨.done (.throw e), .thenDo _ :: fs⟩, σ => (⟨.done (.throw e), fs⟩, σ)
  | ⟨.done (.throw _), .endTry :: fs⟩, σ => (⟨.done (.ok .skip), fs⟩, σ)
  | ⟨.done .abort, _ :: fs⟩, σ => (⟨.done .abort, fs⟩, σ)
  | ⟨.done (.ub u), _ :: fs⟩, σ => (⟨.done (.ub u), fs⟩, σ)
  | ⟨.done .diverge, _ :: fs⟩, σ => (⟨.done .diverge, fs⟩, σ)
  | t, σ => (t, σ)

/-- How a thread has ended, if it has. -/
def Thread.result : Thread → Option (Res Unit)
  | ⟨.done (.ok .skip), []⟩ => some (.ok ())
  | ⟨.done (.throw e), []⟩ => some (.throw e)
  | ⟨.done .abort, []⟩ => some .abort
  | ⟨.done (.ub u), []⟩ => some (.ub u)
  | _ => none

/-- Threads, by number. -/
abbrev Pool := Nat → Thread

/-- One step of thread `t`.  (Simplified: a thread that aborts or runs into undefined behaviour does
not stop the others.) -/
def Pool.step (t : Nat) (c : Pool × Store) : Pool × Store :=
  let r := (c.1 t).step c.2
  (fun u => if u = t then r.1 else c.1 u, r.2)

/-- The threads take steps in the given order.  Simplified: accesses to members are indivisible and
take effect at once (sequential consistency); in C++ that is so if there are no data races. -/
def Pool.run : List Nat → Pool × Store → Pool × Store
  | [], c => c
  | t :: ts, c => Pool.run ts (Pool.step t c)

/-- The next access of a thread: object, whether to `_bits`, whether a write. -/
def Thread.next : Thread → Option (Nat × Bool × Bool)
  | ⟨.getSign i _, _⟩ => some (i, false, false)
  | ⟨.getBits i _, _⟩ => some (i, true, false)
  | ⟨.setSign i _ _, _⟩ => some (i, false, true)
  | ⟨.setBits i _ _, _⟩ => some (i, true, true)
  | _ => none

end BigIntegerCpp
