import Verif.Model.Calculator
/-
Random operands of the unit tests: the generator tests/Random.h, .cpp, the functions that make arrays from it, and the
tests tests/gcd.cpp, tests/divrem.cpp and tests/modpow.cpp that use them.  `Random` is a class with value semantics
and is always passed by value.
-/
namespace BigIntegerCpp
variable [Cfg]
namespace RandomTests
open Calculator

/-- Random.h:16 the engine with a distribution over a closed interval (Random.cpp:8-9), which are of the C++ library:
any states and any function that draws a number of the interval and gives the next state. -/
structure Engine where
  State : Type
  draw : Int → Int → State → Int × State
  within : ∀ min max s, min ≤ max → min ≤ (draw min max s).1 ∧ (draw min max s).1 ≤ max

variable (g : Engine)

/-- A function that has the generator as a parameter: what it returns and the state in which it leaves the generator. -/
abbrev Gen (α : Type) := g.State → Res (α × g.State)

/-- Random.cpp:5-10 `Next(min, max)`. -/
def next (min max : Int) : Gen g Int := fun s => if min > max then .throw .outOfRange else .ok (g.draw min max s)

/-- Random.cpp:12-17 `NextBytes` on an array of `size` bytes; `max` is 0x7f there. -/
def nextBytes (max : Int) : Nat → Gen g (List Nat)
  | 0, s => .ok ([], s)
  | size + 1, s => do
    let (b, s) ← next g 0 max s
    let (bs, s) ← nextBytes max size s
    .ok ((b % 256).toNat :: bs, s)

variable {g}

/-- A call of a function whose parameter `Random random` is a copy of the caller's generator. -/
def byValue {α : Type} (f : Gen g α) : Gen g α := fun s => do
  let (a, _) ← f s
  .ok (a, s)

variable (g)

/-- MyBigInt.cpp:6-10 `MyBigIntImp::GetRandomByteArray(random, size)`. -/
def getRandomByteArray (size : Nat) : Gen g (List Nat) := byValue (nextBytes g 0x7f size)

/-- MyBigInt.cpp:875-877, the loop; `rounds` bounds it. -/
def nonZeroLoop : Nat → List Nat → Gen g (List Nat)
  | 0, _, _ => .diverge
  | rounds + 1, value, s =>
    if Oracle.isZero value then do
      let (value, s) ← nextBytes g 0x7f value.length s
      nonZeroLoop rounds value s
    else .ok (value, s)

/-- MyBigInt.cpp:873-879 `MyBigIntImp::GetNonZeroRandomByteArray(random, size)`. -/
def getNonZeroRandomByteArray (rounds size : Nat) : Gen g (List Nat) := byValue (nonZeroLoop g rounds (List.replicate size 0))

/-- modpow.cpp:35-46 `GetRandomPosByteArray(random, size)`: all bytes, the sign bit cleared. -/
def getRandomPosByteArray (size : Nat) : Gen g (List Nat) := byValue fun s => do
  let (value, s) ← nextBytes g 256 size s
  match value.getLast? with
  | none => .ub .outOfBounds
  | some c => .ok (value.dropLast ++ [c &&& 0x7f], s)

/-- The functions without a size, e.g. gcd.cpp:34-36 `return GetRandomByteArray(random, random.Next(1, 100));`.
C++ does not say whether `random` is copied for the call before or after `Next`; `sizeFirst`: after.  A negative size
(not drawn in any test) is not modelled. -/
def ofRandomSize (sizeFirst : Bool) (min max : Int) (f : Nat → Gen g (List Nat)) : Gen g (List Nat) := byValue fun s => do
  let (size, s') ← next g min max s
  let (value, _) ← f size.toNat (if sizeFirst then s' else s)
  .ok (value, s')

/-- An array written out in a test. -/
def fixed (bytes : List Nat) : Gen g (List Nat) := fun s => .ok (bytes, s)

/-- A check of a test: the texts it runs and its verdict. -/
structure Check where
  texts : List (List Char)
  passed : Bool
deriving DecidableEq

variable {g}

/-- Two parts of a test, one after the other.  A failed `ASSERT_EQ` inside of a function that a test calls leaves that
function only, so that all checks are made. -/
def andThen (p q : Gen g (List Check)) : Gen g (List Check) := fun s => do
  let (l, s) ← p s
  let (m, s) ← q s
  .ok (l ++ m, s)

/-- `for (int i = 0; i < s_samples; i++)`. -/
def samples (body : Gen g (List Check)) : Nat → Gen g (List Check)
  | 0 => fun s => .ok ([], s)
  | k + 1 => andThen body (samples body k)

/-- How a test verifies a text: bounds for loops, and the logarithms (see `Model/Calculator.lean`). -/
structure Setting where
  n : Nat
  k : Nat
  logs : Logs

/-- A binary operation on two arrays made one after the other, e.g. gcd.cpp:51-53; `out`: with the out parameter. -/
def pair (w : Setting) (out : Bool) (op : String) (r1 r2 : Gen g (List Nat)) : Gen g (List Check) := fun s => do
  let (t1, s) ← r1 s
  let (t2, s) ← r2 s
  let text := print t1 ++ (print t2 ++ op.toList)
  .ok ([⟨[text], ← verify out w.n w.logs w.k (start text)⟩], s)

/-- `EXPECT_THROW(…, DivideByZero)`: another exception, or none, is a failure. -/
def expectDivideByZero (r : Res Bool) : Res Bool :=
  match r with
  | .throw .divideByZero => .ok true
  | .throw _ => .ok false
  | .ok _ => .ok false
  | .abort => .abort
  | .ub u => .ub u
  | .diverge => .diverge

/-- gcd.cpp:16-28, first half: the loop of `VerifyIdentityString` makes two operations in a round.  (`DoNextOperation`
changes nothing when it returns false.) -/
def runAll (n : Nat) (logs : Logs) : Nat → Calc → Res Calc
  | 0, _ => .diverge
  | k + 1, c => do
    match ← Calculator.next n logs c with
    | none => .ok c
    | some c => do
      match ← Calculator.next n logs c with
      | none => runAll n logs k c
      | some c => runAll n logs k c

/-- gcd.cpp:16-28 `VerifyIdentityString`: only the library's stacks are compared. -/
def verifyIdentity (w : Setting) (text1 text2 : List Char) : Res Bool := do
  let sc1 ← runAll w.n w.logs w.k (start text1)
  let sc2 ← runAll w.n w.logs w.k (start text2)
  let (a, _) ← pop sc1.snCalc
  let (b, _) ← pop sc2.snCalc
  .ok ((← a.toStr) = (← b.toStr))

variable (g)

/-- gcd.cpp:34-36, divrem.cpp:27-29, modpow.cpp:66-69 -/
def large (sizeFirst : Bool) (rounds : Nat) : Gen g (List Nat) := ofRandomSize g sizeFirst 1 100 (getNonZeroRandomByteArray g rounds)
/-- gcd.cpp:30-32 with size 2 -/
def small (rounds : Nat) : Gen g (List Nat) := getNonZeroRandomByteArray g rounds 2
/-- modpow.cpp:71-74 -/
def largePos (sizeFirst : Bool) : Gen g (List Nat) := ofRandomSize g sizeFirst 1 100 (getRandomPosByteArray g)

/-- gcd.cpp:43-113 `RunGCDTests`, after the declarations. -/
def runGCDTests (w : Setting) (sizeFirst : Bool) (rounds : Nat) : Gen g (List Check) :=
  let large := large g sizeFirst rounds
  let small := small g rounds
  let gcd := pair w false "bGCD"
  andThen (samples (gcd large large) 10) <|
  andThen (samples (gcd small small) 10) <|
  andThen (samples (andThen (gcd large small) (gcd small large)) 10) <|
  andThen (samples (andThen (gcd large (fixed g [0])) (gcd (fixed g [0]) large)) 10) <|
  andThen (samples (andThen (gcd small (fixed g [0])) (gcd (fixed g [0]) small)) 10) <|
  fun s => do
    let t1 := "9223372036854775807 2147483647 bGCD 32767 bGCD".toList
    let t2 := "2147483647 32767 bGCD 9223372036854775807 bGCD".toList
    let v1 ← verifyIdentity w t1 t2
    let (x, s) ← large s
    let (y, s) ← large s
    let (z, s) ← large s
    let u1 := print x ++ (print y ++ (print z ++ "bGCD bGCD".toList))
    let u2 := print y ++ (print z ++ (print x ++ "bGCD bGCD".toList))
    let v2 ← verifyIdentity w u1 u2
    .ok ([⟨[t1, t2], v1⟩, ⟨[u1, u2], v2⟩], s)

/-- divrem.cpp:36-49 -/
def runDivRemTwoLarge (w : Setting) (sizeFirst : Bool) (rounds : Nat) : Gen g (List Check) :=
  samples (pair w true "bDivRem" (large g sizeFirst rounds) (large g sizeFirst rounds)) 10
/-- divrem.cpp:51-64 -/
def runDivRemTwoSmall (w : Setting) (rounds : Nat) : Gen g (List Check) :=
  samples (pair w true "bDivRem" (small g rounds) (small g rounds)) 10
/-- divrem.cpp:66-83 -/
def runDivRemOneSmallOneLarge (w : Setting) (sizeFirst : Bool) (rounds : Nat) : Gen g (List Check) :=
  samples (andThen (pair w true "bDivRem" (large g sizeFirst rounds) (small g rounds))
    (pair w true "bDivRem" (small g rounds) (large g sizeFirst rounds))) 10

/-- divrem.cpp:92-99, :109-116 the body of the loops with zero. -/
def divRemZero (w : Setting) (r : Gen g (List Nat)) : Gen g (List Check) := fun s => do
  let (t1, s) ← r s
  let t2 := [0]
  let text1 := print t1 ++ (print t2 ++ "bDivRem".toList)
  let v1 ← verify true w.n w.logs w.k (start text1)
  let text2 := print t2 ++ (print t1 ++ "bDivRem".toList)
  let v2 ← expectDivideByZero (verify true w.n w.logs w.k (start text2))
  .ok ([⟨[text1], v1⟩, ⟨[text2], v2⟩], s)
/-- divrem.cpp:85-100 -/
def runDivRemOneLargeOne0 (w : Setting) (sizeFirst : Bool) (rounds : Nat) : Gen g (List Check) :=
  samples (divRemZero g w (large g sizeFirst rounds)) 10
/-- divrem.cpp:102-117 -/
def runDivRemOneSmallOne0 (w : Setting) (rounds : Nat) : Gen g (List Check) :=
  samples (divRemZero g w (small g rounds)) 10

/-- `mod_pow` of three arrays made one after the other: base, exponent, modulus (e.g. modpow.cpp:163-166). -/
def triple (w : Setting) (r1 r2 r3 : Gen g (List Nat)) : Gen g (List Check) := fun s => do
  let (t1, s) ← r1 s
  let (t2, s) ← r2 s
  let (t3, s) ← r3 s
  let text := print t3 ++ (print t2 ++ (print t1 ++ "tModPow".toList))
  .ok ([⟨[text], ← verify false w.n w.logs w.k (start text)⟩], s)

/-- modpow.cpp:152-168 `mod_pow3SmallInt` -/
def runModPow3Small (w : Setting) (rounds : Nat) : Gen g (List Check) :=
  samples (triple g w (small g rounds) (getRandomPosByteArray g 2) (small g rounds)) 10
/-- modpow.cpp:170-196 `mod_pow1Large2SmallInt` -/
def runModPow1Large2Small (w : Setting) (sizeFirst : Bool) (rounds : Nat) : Gen g (List Check) :=
  samples (andThen (triple g w (small g rounds) (largePos g sizeFirst) (small g rounds)) <|
    andThen (triple g w (large g sizeFirst rounds) (getRandomPosByteArray g 2) (small g rounds))
      (triple g w (small g rounds) (getRandomPosByteArray g 1) (large g sizeFirst rounds))) 10
/-- modpow.cpp:198-214 `mod_pow2Large1SmallInt` -/
def runModPow2Large1Small (w : Setting) (sizeFirst : Bool) (rounds : Nat) : Gen g (List Check) :=
  samples (triple g w (large g sizeFirst rounds) (largePos g sizeFirst) (small g rounds)) 10

end RandomTests
end BigIntegerCpp
