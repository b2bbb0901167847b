import Verif.Model.Program
import Verif.Model.Bytes
import Verif.Model.Convert
/-
A stack machine whose integers are `BigInteger` objects of at most 32 bytes, in the manner of the
virtual machine the library was written for (README.md: the library exists for a port of NEO).  The
machine itself is user code: it has no counterpart in the repository.  What it calls is the model of
the repository's functions, cited at their definitions.

Simplifications: conditions are pushed as the integers 0 and 1, and the stack holds integers only.
-/
namespace BigIntegerCpp
variable [Cfg]

/-- Instructions that work on the stack. -/
inductive MOp
  /-- push the integer of a little-endian two's-complement byte array -/
  | push (v : List (Fin 256))
  | dup | drop | swap | over | rot
  | un (op : UnOp) | inc | dec | sign
  | bin (op : BinOp) | min | max
  | modMul | modPow | pow | shl | shr
  | cmp (op : Rel) | within | isZero
  deriving DecidableEq, Repr

/-- Instructions of the machine: work on the stack, or jump. -/
inductive Instr
  | op (o : MOp)
  | jmp (target : Nat)
  /-- jump if the top of the stack, which is popped, is not zero -/
  | jmpIf (target : Nat)
  deriving DecidableEq, Repr

/-- The machine: at an instruction with a stack, stopped behind the last instruction, or faulted. -/
inductive Status (α : Type)
  | running (pc : Nat) (stack : List α)
  | halted (stack : List α)
  | faulted
  deriving DecidableEq, Repr

namespace MOp

/-- Pushes a result, unless its `get_byte_count()` is over 32 (then the machine faults: `none`). -/
def limited (r : Res BigInt) (rest : List BigInt) : Res (Option (List BigInt)) := do
  let v ← r
  let n ← v.byteCount false
  .ok (if n ≤ 32 then some (v :: rest) else none)

/-- `static_cast<int>(n)` (operator int, BigInteger.cpp:735-758), to be a count from 0 to 256. -/
def count (n : BigInt) : Res (Option Int) := do
  let k ← n.toInt32
  .ok (if 0 ≤ k ∧ k ≤ 256 then some k else none)

/-- Runs `f` with a count, faults without one. -/
def counted (n : BigInt) (f : Int → Res BigInt) (rest : List BigInt) : Res (Option (List BigInt)) := do
  match ← count n with
  | some k => limited (f k) rest
  | none => .ok none

/-- Pushes a truth value. -/
def truth (b : Bool) (rest : List BigInt) : Res (Option (List BigInt)) := limited (ofInt32 (if b then 1 else 0)) rest

/-- One instruction on the stack, its top first; `none`: too few operands, or a result too large. -/
def exec : MOp → List BigInt → Res (Option (List BigInt))
  | push v, st => if v.length ≤ 32 then limited (ofBytes (v.map Fin.val) false false) st else .ok none
  | dup, a :: st => .ok (some (a :: a :: st))
  | drop, _ :: st => .ok (some st)
  | swap, b :: a :: st => .ok (some (a :: b :: st))
  | over, b :: a :: st => .ok (some (a :: b :: a :: st))
  | rot, c :: b :: a :: st => .ok (some (a :: c :: b :: st))
  | un op, a :: st => limited (op.apply a) st
  | inc, a :: st => limited a.inc st
  | dec, a :: st => limited a.dec st
  | sign, a :: st => limited (a.signum >>= ofInt32) st
  | bin op, b :: a :: st => limited (op.apply a b) st
  | min, b :: a :: st => limited (a.min b) st
  | max, b :: a :: st => limited (a.max b) st
  | modMul, m :: b :: a :: st => limited (do let c ← a.mul b; c.rem m) st
  | modPow, m :: e :: a :: st => limited (a.modPow e m) st
  | pow, n :: a :: st => counted n a.pow st
  | shl, n :: a :: st => counted n a.shl st
  | shr, n :: a :: st => counted n a.shr st
  | cmp op, b :: a :: st => do truth (← op.apply a b) st
  | within, b :: a :: x :: st => do
    if ← a.le x then truth (← x.lt b) st else truth false st
  | isZero, a :: st => do truth (← a.isZero) st
  | _, _ => .ok none

end MOp

namespace Machine

/-- One step of the program `p`.  Whatever is thrown is caught, and faults the machine. -/
def step (p : List Instr) : Status BigInt → Res (Status BigInt)
  | .running pc st =>
    match p[pc]? with
    | none => .ok (.halted st)
    | some (.op o) =>
      match o.exec st with
      | .ok (some st') => .ok (.running (pc + 1) st')
      | .ok none => .ok .faulted
      | .throw _ => .ok .faulted
      | .abort => .abort
      | .ub u => .ub u
      | .diverge => .diverge
    | some (.jmp t) => .ok (.running t st)
    | some (.jmpIf t) =>
      match st with
      | a :: st' => do
        let z ← a.isZero
        .ok (.running (if z then pc + 1 else t) st')
      | [] => .ok .faulted
  | s => .ok s

/-- `n` steps. -/
def run (p : List Instr) : Nat → Status BigInt → Res (Status BigInt)
  | 0, s => .ok s
  | n + 1, s => do
    let s' ← step p s
    run p n s'

end Machine
end BigIntegerCpp
