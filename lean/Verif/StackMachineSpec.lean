import Verif.ProgramSpec
import Verif.Model.StackMachine
/-
The stack machine of Model/StackMachine.lean with plain integers in place of `BigInteger` objects:
what its programs should do.  Only the syntax is taken from the model.
-/
namespace BigIntegerCpp

/-- The integers of the machine: those of 32 bytes. -/
def Word256 (z : Int) : Prop := -2 ^ 255 ≤ z ∧ z < 2 ^ 255

instance (z : Int) : Decidable (Word256 z) := inferInstanceAs (Decidable (_ ∧ _))

instance Rel.decidable (op : Rel) (x y : Int) : Decidable (op.Holds x y) := by
  cases op <;> (dsimp only [Rel.Holds]; infer_instance)

namespace MOp

/-- Push a result if it is an integer of the machine. -/
def fit (z : Int) (st : List Int) : Option (List Int) := if Word256 z then some (z :: st) else none

/-- The effect of an instruction on a stack of integers, its top first; `none` is a fault. -/
def meaning : MOp → List Int → Option (List Int)
  | push v, st => if v.length ≤ 32 then some (bytesValue false false (v.map Fin.val) :: st) else none
  | dup, x :: st => some (x :: x :: st)
  | drop, _ :: st => some st
  | swap, y :: x :: st => some (x :: y :: st)
  | over, y :: x :: st => some (x :: y :: x :: st)
  | rot, z :: y :: x :: st => some (x :: z :: y :: st)
  | un op, x :: st => fit (op.meaning x) st
  | inc, x :: st => fit (x + 1) st
  | dec, x :: st => fit (x - 1) st
  | sign, x :: st => some (x.sign :: st)
  | bin op, y :: x :: st =>
    match op.meaning x y with
    | .ok z => fit z st
    | .error _ => none
  | min, y :: x :: st => some (Min.min x y :: st)
  | max, y :: x :: st => some (Max.max x y :: st)
  | modMul, m :: y :: x :: st => if m = 0 then none else some ((x * y).tmod m :: st)
  | modPow, m :: e :: x :: st => if e < 0 ∨ m = 0 then none else some ((x ^ e.toNat).tmod m :: st)
  | pow, n :: x :: st => if 0 ≤ n ∧ n ≤ 256 then fit (x ^ n.toNat) st else none
  | shl, n :: x :: st => if 0 ≤ n ∧ n ≤ 256 then fit (x * 2 ^ n.toNat) st else none
  | shr, n :: x :: st => if 0 ≤ n ∧ n ≤ 256 then some (x / 2 ^ n.toNat :: st) else none
  | cmp op, y :: x :: st => some ((if op.Holds x y then 1 else 0) :: st)
  | within, b :: a :: x :: st => some ((if a ≤ x ∧ x < b then 1 else 0) :: st)
  | isZero, x :: st => some ((if x = 0 then 1 else 0) :: st)
  | _, _ => none

/-- Where the library does something else: a count of `INT_MIN` (C34), `>>` by whole words of certain
negative values (C22), and `mod_pow` with an `int`-sized modulus and a negative remainder (C16) or
modulus zero, an `int`-sized base and an exponent of `2^32` or more (C17). -/
def Trips : MOp → List Int → Prop
  | pow, n :: _ :: _ => n = -2 ^ 31
  | shl, n :: _ :: _ => n = -2 ^ 31
  | shr, n :: x :: _ => n = -2 ^ 31 ∨ 0 ≤ n ∧ n ≤ 256 ∧ ShiftMisfires x n.toNat
  | modPow, m :: e :: x :: _ => 0 ≤ e ∧
      (m ≠ 0 ∧ |m| < 2 ^ 31 ∧ (x ^ e.toNat).tmod m < 0 ∨ m = 0 ∧ |x| < 2 ^ 31 ∧ 2 ^ 32 ≤ e)
  | _, _ => False

/-- What the library did to the stack is what was meant: the same integers, or a fault (for which the
library may also have thrown). -/
def Does (r : Res (Option (List BigInt))) : Option (List Int) → Prop
  | some zs => ∃ st, r = .ok (some st) ∧ List.Forall₂ BigInt.Denotes st zs
  | none => r = .ok none ∨ ∃ e, r = .throw e

open Classical in
/-- What the library does: as meant, unless the instruction trips.  Then a count of `INT_MIN` or a zero
modulus is undefined, `>>` pushes zero, and `mod_pow` the remainder plus `2^32`. -/
noncomputable def actual (o : MOp) (zs : List Int) : Res (Option (List Int)) :=
  if o.Trips zs then
    match o, zs with
    | shr, n :: _ :: st => if n = -2 ^ 31 then .ub .signedOverflow else .ok (some (0 :: st))
    | modPow, m :: e :: x :: st => if m = 0 then .ub .divByZero else .ok (some (((x ^ e.toNat).tmod m + 2 ^ 32) :: st))
    | _, _ => .ub .signedOverflow
  else .ok (o.meaning zs)

/-- Instructions that cannot trip. -/
def Plain : MOp → Prop
  | pow | shl | shr | modPow => False
  | _ => True

instance (o : MOp) : Decidable o.Plain := by cases o <;> (dsimp only [Plain]; infer_instance)

end MOp

namespace IntMachine

/-- One step of the program `p`. -/
def step (p : List Instr) : Status Int → Status Int
  | .running pc st =>
    match p[pc]? with
    | none => .halted st
    | some (.op o) =>
      match o.meaning st with
      | some st' => .running (pc + 1) st'
      | none => .faulted
    | some (.jmp t) => .running t st
    | some (.jmpIf t) =>
      match st with
      | x :: st' => .running (if x = 0 then pc + 1 else t) st'
      | [] => .faulted
  | s => s

/-- `n` steps. -/
def run (p : List Instr) : Nat → Status Int → Status Int
  | 0, s => s
  | n + 1, s => run p n (step p s)

/-- The instruction about to be executed trips. -/
def Trips (p : List Instr) : Status Int → Prop
  | .running pc st => ∃ o, p[pc]? = some (.op o) ∧ o.Trips st
  | _ => False

end IntMachine

namespace ActualMachine

/-- One step of the program `p`, as the library takes it. -/
noncomputable def step (p : List Instr) : Status Int → Res (Status Int)
  | .running pc st =>
    match p[pc]? with
    | some (.op o) => do
      match ← o.actual st with
      | some st' => .ok (.running (pc + 1) st')
      | none => .ok .faulted
    | _ => .ok (IntMachine.step p (.running pc st))
  | s => .ok s

/-- `n` steps. -/
noncomputable def run (p : List Instr) : Nat → Status Int → Res (Status Int)
  | 0, s => .ok s
  | n + 1, s => do
    let s' ← step p s
    run p n s'

end ActualMachine

/-- The objects on the stack stand for the integers. -/
def Status.Shows : Status BigInt → Status Int → Prop
  | .running pc st, .running pc' zs => pc = pc' ∧ List.Forall₂ BigInt.Denotes st zs
  | .halted st, .halted zs => List.Forall₂ BigInt.Denotes st zs
  | .faulted, .faulted => True
  | _, _ => False

/-- The stack of a status. -/
def Status.stack {α : Type} : Status α → List α
  | .running _ st => st
  | .halted st => st
  | .faulted => []

end BigIntegerCpp
