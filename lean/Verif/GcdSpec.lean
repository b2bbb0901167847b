import Verif.Spec
/-
Specification: how a run of Euclid's algorithm on two natural numbers ends in `EuclidStep`'s terms.
-/
namespace BigIntegerCpp

/-- The number of 32-bit words of a positive number. -/
def wordCount (x : Nat) : Nat := Nat.log2 x / 32 + 1

/-- After some steps of Euclid's algorithm, each of the kind the code takes one by one, a pair is
reached whose smaller member is still at least `2^64`, that calls for a Lehmer step, and that has
the property `P`. -/
inductive EuclidThen (P : Nat → Nat → Prop) : Nat → Nat → Prop
  | here (x y : Nat) : 2 ^ 64 ≤ y → ¬ EuclidStep x y → P x y → EuclidThen P x y
  | step (x y : Nat) : 2 ^ 64 ≤ y → EuclidStep x y → EuclidThen P y (x % y) → EuclidThen P x y

/-- The first Lehmer step finds two numbers of the same number of words. -/
def LehmerSame : Nat → Nat → Prop := EuclidThen fun x y => wordCount x = wordCount y

/-- The first Lehmer step finds two numbers of different numbers of words. -/
def LehmerDifferent : Nat → Nat → Prop := EuclidThen fun x y => wordCount x ≠ wordCount y

/-- The number of steps of Euclid's algorithm on `x`, `y` until the smaller number is below `2^64`. -/
def euclidCount (x y : Nat) : Nat :=
  if y < 2 ^ 64 then 0 else euclidCount y (x % y) + 1
termination_by y
decreasing_by exact Nat.mod_lt _ (by omega)

end BigIntegerCpp
