import Verif.Spec
import Verif.Model.Buffers
/-
What buffers are for: natural numbers.  Only the names of the calls and the two members of a buffer are taken from the
model.
-/
namespace BigIntegerCpp

/-- The buffer shows the number `x`: `GetBits()` are the `size` digits of `x` to the base `2^32`, lowest first, and
`GetLength()` is the number of digits it needs. -/
def BitsBuffer.Shows (size : Nat) (b : BitsBuffer) (x : Nat) : Prop :=
  b.bits = (List.range size).map (fun k => x / 2 ^ (32 * k) % 2 ^ 32) ∧ b.length ≤ size ∧ ∀ n, b.length ≤ n ↔ x < 2 ^ (32 * n)

/-- All buffers show their numbers, and the scratch buffer is all zeros. -/
def Bench.Shows (size : Nat) (s : Bench) (ρ : Nat → Nat) : Prop :=
  (∀ i, (s.bufs i).Shows size (ρ i)) ∧ s.temp.bits = List.replicate size 0

/-- What a call should do to the numbers. -/
def BufOp.meaning (ρ : Nat → Nat) : BufOp → Nat → Nat
  | word i v => Function.update ρ i v
  | words i v => Function.update ρ i (val v)
  | multiply i j => Function.update ρ i (ρ i * ρ j)
  | square i => Function.update ρ i (ρ i ^ 2)
  | reduce i m => Function.update ρ i (ρ i % val m)
  | reduceBy i j => Function.update ρ i (ρ i % ρ j)
  | reduceFast i m => Function.update ρ i (ρ i % val m)
  | overwrite i v => Function.update ρ i v
  | overwriteWord i v => Function.update ρ i v
  | refresh i n => Function.update ρ i (ρ i % 2 ^ (32 * n))

/-- What a call needs: arguments of the right C++ type, room for the product, a modulus that is not zero and has no
leading zero words, and for a `FastReducer` buffers of at most twice the length of the modulus, and fewer words in use
if that is a power of `2^32`. -/
def BufOp.Allowed (size : Nat) (ρ : Nat → Nat) : BufOp → Prop
  | word _ v => 0 < size ∧ v < 2 ^ 32
  | words _ v => WordsOk v ∧ v.length < 2 ^ 31 ∧ val v < 2 ^ (32 * size)
  | multiply i j => ∃ a b, a + b ≤ size ∧ ρ i < 2 ^ (32 * a) ∧ ρ j < 2 ^ (32 * b)
  | square i => ∃ a, a + a ≤ size ∧ ρ i < 2 ^ (32 * a)
  | reduce _ m => WordsOk m ∧ m ≠ [] ∧ m.getLast? ≠ some 0
  | reduceBy _ j => ρ j ≠ 0
  | reduceFast i m => WordsOk m ∧ m ≠ [] ∧ m.getLast? ≠ some 0 ∧ 2 * m.length < 2 ^ 31 - 1 ∧ size ≤ 2 * m.length ∧
      (val m ≠ 2 ^ (32 * (m.length - 1)) ∨ ρ i < 2 ^ (32 * (2 * m.length - 1)))
  | overwrite _ v => 2 ≤ size ∧ v < 2 ^ 64
  | overwriteWord _ v => 0 < size ∧ v < 2 ^ 32
  | refresh _ n => n ≤ size

/-- Where the code does something else: numbers overwritten or cut that are longer than what is to be left of them, and
numbers that a `FastReducer` would have to reduce. -/
def BufOp.Trips (ρ : Nat → Nat) : BufOp → Prop
  | reduceFast i m => val m ≤ ρ i
  | overwrite i _ => 2 ^ 64 ≤ ρ i
  | overwriteWord i _ => 2 ^ 32 ≤ ρ i
  | refresh i n => 0 < n ∧ 2 ^ (32 * n) ≤ ρ i
  | _ => False

/-- The calls on numbers. -/
def opsMeaning : List BufOp → (Nat → Nat) → Nat → Nat
  | [], ρ => ρ
  | op :: ops, ρ => opsMeaning ops (op.meaning ρ)

/-- Every call of the sequence has what it needs and does not trip. -/
def OpsAllowed (size : Nat) : List BufOp → (Nat → Nat) → Prop
  | [], _ => True
  | op :: ops, ρ => (op.Allowed size ρ ∧ ¬ op.Trips ρ) ∧ OpsAllowed size ops (op.meaning ρ)

end BigIntegerCpp
