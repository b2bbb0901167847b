import Verif.Model.Program
/-
Programs a user of the library might write; they have no counterpart in the repository.  Variables
are objects of type `BigInteger`.
-/
namespace BigIntegerCpp

/-- Statements one after the other. -/
def block : List Prog → Prog
  | [] => .skip
  | [p] => p
  | p :: ps => .seq p (block ps)

/-- Greatest common divisor of `v0` and `v1`, left in `v0`:

    while (!v1.is_zero()) { v2 = v0 % v1; v0 = v1; v1 = v2; }
    v0 = abs(v0); -/
def gcdOf : Prog := block
  [.whileDo (.not (.isZero 1)) (block
    [.stmt (.binary .rem 2 0 1),
     .stmt (.unary .copy 0 1),
     .stmt (.unary .copy 1 2)]),
   .stmt (.unary .abs 0 0)]

/-- `v0` to the power `v1` modulo `v2`, left in `v3`:

    v3 = 1; v3 %= v2; v0 %= v2;
    while (!v1.is_zero()) {
      if (!v1.is_even()) { v3 *= v0; v3 %= v2; }
      v0 *= v0; v0 %= v2; v1 >>= 1;
    } -/
def powerMod : Prog := block
  [.stmt (.const 3 1),
   .stmt (.update .rem 3 2),
   .stmt (.update .rem 0 2),
   .whileDo (.not (.isZero 1)) (block
    [.ifThen (.not (.isEven 1)) (block
      [.stmt (.update .mul 3 0),
       .stmt (.update .rem 3 2)]) .skip,
     .stmt (.update .mul 0 0),
     .stmt (.update .rem 0 2),
     .stmt (.shr 1 1)])]

/-- RSA: the message `v0` encrypted with the exponent `v1` and decrypted with the exponent `v4`, both
modulo `v2`; the result is left in `v3`:

    … powers as above …; v0 = v3; v1 = v4; … powers as above … -/
def encryptDecrypt : Prog := block
  [powerMod,
   .stmt (.unary .copy 0 3),
   .stmt (.unary .copy 1 4),
   powerMod]

/-- Integer square root of `v0` by Newton's method, left in `v1`:

    v1 = v0; v2 = v0; ++v2; v2 >>= 1;
    while (v2 < v1) { v1 = v2; v3 = v0 / v1; v2 = v1 + v3; v2 >>= 1; } -/
def squareRoot : Prog := block
  [.stmt (.unary .copy 1 0),
   .stmt (.unary .copy 2 0),
   .stmt (.inc 2),
   .stmt (.shr 2 1),
   .whileDo (.rel .lt 2 1) (block
    [.stmt (.unary .copy 1 2),
     .stmt (.binary .div 3 0 1),
     .stmt (.binary .add 2 1 3),
     .stmt (.shr 2 1)])]

/-- Inverse of `v0` modulo `v1`, left in `v2`, the greatest common divisor in `v4`:

    v4 = v1; v5 = v0; v5 %= v1; v2 = 0; v3 = 1;
    while (!v5.is_zero()) {
      v6 = v4 / v5;
      v7 = v6 * v5; v7 = v4 - v7; v4 = v5; v5 = v7;
      v7 = v6 * v3; v7 = v2 - v7; v7 %= v1; v2 = v3; v3 = v7;
    }
    if (v2 < 0) v2 += v1;        // v6 = 0 for the comparison -/
def inverseMod : Prog := block
  [.stmt (.unary .copy 4 1),
   .stmt (.unary .copy 5 0),
   .stmt (.update .rem 5 1),
   .stmt (.const 2 0),
   .stmt (.const 3 1),
   .whileDo (.not (.isZero 5)) (block
    [.stmt (.binary .div 6 4 5),
     .stmt (.binary .mul 7 6 5),
     .stmt (.binary .sub 7 4 7),
     .stmt (.unary .copy 4 5),
     .stmt (.unary .copy 5 7),
     .stmt (.binary .mul 7 6 3),
     .stmt (.binary .sub 7 2 7),
     .stmt (.update .rem 7 1),
     .stmt (.unary .copy 2 3),
     .stmt (.unary .copy 3 7)]),
   .stmt (.const 6 0),
   .ifThen (.rel .lt 2 6) (.stmt (.update .add 2 1)) .skip]

/-- Factorial of `v0`, left in `v1`:

    v1 = 1; while (!v0.is_zero()) { v1 *= v0; --v0; } -/
def factorialOf : Prog := block
  [.stmt (.const 1 1),
   .whileDo (.not (.isZero 0)) (block
    [.stmt (.update .mul 1 0),
     .stmt (.dec 0)])]

end BigIntegerCpp
