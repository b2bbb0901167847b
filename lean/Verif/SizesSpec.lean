import Verif.Model.Bits
/-
The vocabulary of C72: the bit lengths of operands and results.
-/
namespace BigIntegerCpp
variable [Cfg]

/-- The call `r` returns an object on which `get_bit_length()` returns `k`. -/
def ReturnsLength (r : Res BigInt) (k : Nat) : Prop := ∃ c, r = .ok c ∧ c.bitLength = .ok k

/-- `x` is minus a power of two. -/
def NegPowerOfTwo (x : Int) : Prop := ∃ j : Nat, x = -2 ^ j
/-- `x` is plus or minus a power of two. -/
def PowerOfTwo (x : Int) : Prop := ∃ j : Nat, x = 2 ^ j ∨ x = -2 ^ j

end BigIntegerCpp
