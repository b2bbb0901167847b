import Verif.Model.Long32
import Verif.Model.Gcd
/-
`greatest_common_divisor` compiled where `long` has 32 bits (see Model/Long32.lean).  Only `lehmer_core` computes with
`long`; the `UL` zeroes of `extract_digits` are stored in `uint64_t` variables, and everything else is `uint32_t`,
`uint64_t` and `int`.
-/
namespace BigIntegerCpp.Long32
variable [Cfg]

/-- GcdInv.cpp:237-244: `a * x[i] - b * y[i] + xCarry` is an `unsigned long`, so it wraps at `2^32`. -/
def lehmerLoop (a b c d : Int) : Nat → List Nat → List Nat → Int → Int → Res Unit
  | 0, _, _, _, _ => .ok ()
  | n + 1, x :: xs, y :: ys, xc, yc => do
    let xDigit := toLong32 (a * x - b * y + xc)
    let yDigit := toLong32 (d * y - c * x + yc)
    let xc ← shr xDigit 32
    let yc ← shr yDigit 32
    lehmerLoop a b c d n xs ys xc yc
  | _ + 1, _, _, _, _ => .ub .outOfBounds

/-- GcdInv.cpp:222-248 `lehmer_core`. -/
def lehmerCore (xb yb : BitsBuffer) (g : Guess) : Res (BitsBuffer × BitsBuffer) := do
  cassert (xb.length ≥ 1)
  cassert (yb.length ≥ 1)
  cassert (xb.length ≥ yb.length)
  cassert (g.a ≤ 0x7FFFFFFF ∧ g.b ≤ 0x7FFFFFFF)
  cassert (g.c ≤ 0x7FFFFFFF ∧ g.d ≤ 0x7FFFFFFF)
  lehmerLoop g.a g.b g.c g.d yb.length xb.bits yb.bits 0 0
  let length := yb.length
  let xb ← xb.refresh length
  let yb ← yb.refresh length
  .ok (xb, yb)

/-- GcdInv.cpp:70-149: the main loop; the first argument bounds the number of iterations. -/
def gcdLoop : Nat → BitsBuffer → BitsBuffer → Res (BitsBuffer × BitsBuffer)
  | 0, _, _ => .diverge
  | fuel + 1, left, right =>
    if right.length > 2 then do
      let (x, y) ← extractDigits left right
      let g ← lehmerGuess x y ⟨1, 0, 0, 1, 0⟩
      if g.b = 0 then do
        let left ← left.reduceBy right
        gcdLoop fuel right left
      else do
        let (left, right) ← lehmerCore left right g
        if g.iteration % 2 = 1 then gcdLoop fuel right left else gcdLoop fuel left right
    else .ok (left, right)

/-- GcdInv.cpp:58-164 `gcd(BitsBuffer&, BitsBuffer&)`: the new `left`. -/
def gcdBuffers (fuel : Nat) (left right : BitsBuffer) : Res BitsBuffer := do
  cassert (left.length ≥ 2)
  cassert (right.length ≥ 2)
  cassert (left.length ≥ right.length)
  let (left, right) ← gcdLoop fuel left right
  if right.length > 0 then do
    let left ← left.reduceBy right
    let x1 ← idx right.bits 1
    let x0 ← idx right.bits 0
    let y1 ← idx left.bits 1
    let y0 ← idx left.bits 0
    left.overwrite (gcd64 (u64 (x1 <<< 32) ||| x0) (u64 (y1 <<< 32) ||| y0))
  else .ok left

/-- GcdInv.cpp:45-56 `gcd(uint_array, uint_array)`. -/
def gcdVec (fuel : Nat) (left right : List Nat) : Res (List Nat) := do
  cassert (left.length ≥ 2)
  cassert (right.length ≥ 2)
  cassert (compareWords left right ≥ 0)
  let lb ← BitsBuffer.ofWords left.length left
  let rb ← BitsBuffer.ofWords right.length right
  let r ← gcdBuffers fuel lb rb
  .ok r.bits

/-- BigInteger.cpp:1661-1682 `greatest_common_divisor(const uint_array&, const uint_array&)`. -/
def gcdBits (fuel : Nat) (left right : List Nat) : Res BigInt := do
  cassert (compareWords left right ≥ 0)
  if right.length = 1 then do
    let r0 ← idx right 0
    let temp ← remainderWord left r0
    ofUInt32 (gcd32 r0 temp)
  else if right.length = 2 then do
    let temp ← remainderVec left right
    let r1 ← idx right 1
    let r0 ← idx right 0
    let t1 ← idx temp 1
    let t0 ← idx temp 0
    ofUInt64 (gcd64 (u64 (r1 <<< 32) ||| r0) (u64 (t1 <<< 32) ||| t0))
  else do
    let bits ← gcdVec fuel left right
    ofMagnitude bits false

/-- BigInteger.cpp:1621-1659 `greatest_common_divisor(const BigInteger&, const BigInteger&)`. -/
def gcd (fuel : Nat) (a b : BigInt) : Res BigInt := do
  assertValid a
  assertValid b
  if a.bits = [] ∧ b.bits = [] then do
    let x ← cabs a.sign
    let y ← cabs b.sign
    ofUInt32 (gcd32 x y)
  else if a.bits = [] then
    if a.sign ≠ 0 then do
      let x ← cabs a.sign
      let r ← gcdWord b.bits x
      ofUInt32 r
    else ofMagnitude b.bits false
  else if b.bits = [] then
    if b.sign ≠ 0 then do
      let x ← cabs b.sign
      let r ← gcdWord a.bits x
      ofUInt32 r
    else ofMagnitude a.bits false
  else if compareWords a.bits b.bits < 0 then gcdBits fuel b.bits a.bits
  else gcdBits fuel a.bits b.bits

end BigIntegerCpp.Long32
