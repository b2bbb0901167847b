import Verif.Long32Spec
/-
The base with which `mod_pow` calculates, on integers.
-/
namespace BigIntegerCpp

/-- `mod_pow` reduces a base first if it has more words of 32 bits than the modulus, and only then. -/
def PowerBase (x z : Int) : Nat := if z.natAbs.log2 / 32 < x.natAbs.log2 / 32 then x.natAbs % z.natAbs else x.natAbs

end BigIntegerCpp
