import Verif.Model.CostPow
import Verif.Model.Gcd
/-
`greatest_common_divisor` again, with what it costs.  Everything else is as in Model/Gcd.lean; that the
outcomes are the same is proved in Lemmas/CostGcd.lean (`…_res`).

A step is one iteration of a loop, or one word of an array that is filled or copied.
-/
namespace BigIntegerCpp
open Counted
namespace Cost
variable [Cfg]

/-- GcdInv.cpp:4-16, one step per iteration. -/
def gcd32 (left right : Nat) : Counted Nat :=
  if _h : right = 0 then pure left else do
    tick 1
    gcd32 right (left % right)
termination_by right
decreasing_by exact Nat.mod_lt _ (by omega)

/-- GcdInv.cpp:18-31, one step per iteration. -/
def gcd64 (left right : Nat) : Counted Nat :=
  if _h : right > 0xFFFFFFFF then do
    tick 1
    gcd64 right (left % right)
  else if right ≠ 0 then gcd32 (u32 right) (u32 (left % right))
  else pure left
termination_by right
decreasing_by exact Nat.mod_lt _ (by omega)

/-- GcdInv.cpp:33-43: the array is passed by value, that is, copied. -/
def gcdWord (left : List Nat) (right : Nat) : Counted Nat := scope left.length do
  lift (cassert (left.length ≥ 1))
  lift (cassert (right ≠ 0))
  let temp ← remainderWord left right
  gcd32 right temp

/-- GcdInv.cpp:166-220 `extract_digits`: both arrays are copied (174, 177). -/
def extractDigits (xb yb : BitsBuffer) : Counted (Nat × Nat) := scope (xb.bits.length + yb.bits.length) do
  lift (BigIntegerCpp.extractDigits xb yb)

/-- GcdInv.cpp:81-129, one step per iteration. -/
def lehmerGuess (x y : Nat) (g : Guess) : Counted Guess :=
  if y = 0 then pure g
  else do
    tick 1
    let q := x / y
    if q > 0xFFFFFFFF then pure g else
    let r := u64 (g.a + u64 (q * g.c))
    let s := u64 (g.b + u64 (q * g.d))
    let t := u64sub x (u64 (q * y))
    if r > 0x7FFFFFFF ∨ s > 0x7FFFFFFF then pure g else
    if t < s ∨ u64 (t + r) > u64sub y g.c then pure g else
    let g := { g with a := u32 r, b := u32 s, iteration := g.iteration + 1 }
    let x := t
    if x = g.b then pure g else
    if x = 0 then lift (.ub .divByZero) else
    let q := y / x
    if q > 0xFFFFFFFF then pure g else
    let r := u64 (g.d + u64 (q * g.b))
    let s := u64 (g.c + u64 (q * g.a))
    let t := u64sub y (u64 (q * x))
    if r > 0x7FFFFFFF ∨ s > 0x7FFFFFFF then pure g else
    if t < s ∨ u64 (t + r) > u64sub x g.b then pure g else
    let g := { g with d := u32 r, c := u32 s, iteration := g.iteration + 1 }
    if t = g.c then pure g else
    if _h : t < y then lehmerGuess x t g else lift .diverge
termination_by y

/-- GcdInv.cpp:237-244, charged as if it ran to the end. -/
def lehmerLoop (a b c d : Int) (n : Nat) (x y : List Nat) : Counted Unit := do
  tick n
  lift (BigIntegerCpp.lehmerLoop a b c d n x y 0 0)

/-- BitsBuffer.cpp:73-77 `Refresh`: the words filled (75) and the words measured (76). -/
def refresh (self : BitsBuffer) (maxLength : Nat) : Counted BitsBuffer := do
  tick (self.length - maxLength + maxLength)
  lift (self.refresh maxLength)

/-- GcdInv.cpp:222-248 `lehmer_core`: both arrays are copied (231, 232). -/
def lehmerCore (xb yb : BitsBuffer) (g : Guess) : Counted (BitsBuffer × BitsBuffer) :=
  scope (xb.bits.length + yb.bits.length) do
    lift (cassert (xb.length ≥ 1))
    lift (cassert (yb.length ≥ 1))
    lift (cassert (xb.length ≥ yb.length))
    lift (cassert (g.a ≤ 0x7FFFFFFF ∧ g.b ≤ 0x7FFFFFFF))
    lift (cassert (g.c ≤ 0x7FFFFFFF ∧ g.d ≤ 0x7FFFFFFF))
    lehmerLoop g.a g.b g.c g.d yb.length xb.bits yb.bits
    let length := yb.length
    let xb ← refresh xb length
    let yb ← refresh yb length
    pure (xb, yb)

/-- BitsBuffer.cpp:47-54 `Reduce(BitsBuffer&)`: the division works in place. -/
def reduceBy (self modulus : BitsBuffer) : Counted BitsBuffer := do
  let m ← lift (slice modulus.bits 0 modulus.length)
  reduce self m

/-- BitsBuffer.cpp:56-64 `Overwrite(uint64_t)`: the words filled (58). -/
def overwrite (self : BitsBuffer) (value : Nat) : Counted BitsBuffer := do
  tick (self.length - 2)
  lift (self.overwrite value)

/-- GcdInv.cpp:135-137 and 144-146: the two buffers are exchanged with three copies, one of them temporary. -/
def swap (left right : BitsBuffer) : Counted (BitsBuffer × BitsBuffer) := scope left.bits.length do
  tick (right.bits.length + left.bits.length)
  pure (right, left)

/-- GcdInv.cpp:70-149: the main loop, one more step per iteration; the first argument bounds their number. -/
def gcdLoop : Nat → BitsBuffer → BitsBuffer → Counted (BitsBuffer × BitsBuffer)
  | 0, _, _ => lift .diverge
  | fuel + 1, left, right =>
    if right.length > 2 then do
      tick 1
      let (x, y) ← extractDigits left right
      let g ← lehmerGuess x y ⟨1, 0, 0, 1, 0⟩
      if g.b = 0 then do
        let left ← reduceBy left right
        let (left, right) ← swap left right
        gcdLoop fuel left right
      else do
        let (left, right) ← lehmerCore left right g
        if g.iteration % 2 = 1 then do
          let (left, right) ← swap left right
          gcdLoop fuel left right
        else gcdLoop fuel left right
    else pure (left, right)

/-- GcdInv.cpp:58-164 `gcd(BitsBuffer&, BitsBuffer&)`: both arrays are copied (155, 156); the second `Overwrite`
(162), on a buffer of at most two words, fills nothing. -/
def gcdBuffers (fuel : Nat) (left right : BitsBuffer) : Counted BitsBuffer := do
  lift (cassert (left.length ≥ 2))
  lift (cassert (right.length ≥ 2))
  lift (cassert (left.length ≥ right.length))
  let (left, right) ← gcdLoop fuel left right
  if right.length > 0 then do
    let left ← reduceBy left right
    scope (right.bits.length + left.bits.length) do
      let x1 ← lift (idx right.bits 1)
      let x0 ← lift (idx right.bits 0)
      let y1 ← lift (idx left.bits 1)
      let y0 ← lift (idx left.bits 0)
      let g ← gcd64 (u64 (x1 <<< 32) ||| x0) (u64 (y1 <<< 32) ||| y0)
      overwrite left g
  else pure left

/-- GcdInv.cpp:45-56 `gcd(uint_array, uint_array)`: the arguments are copied (45), comparing them in the assertion (48)
is charged as if it ran to the end; the two buffers (50, 51) and the result, a copy (55), are counted as storage here. -/
def gcdVec (fuel : Nat) (left right : List Nat) : Counted (List Nat) := scope (left.length + right.length) do
  tick left.length
  lift (cassert (left.length ≥ 2))
  lift (cassert (right.length ≥ 2))
  lift (cassert (compareWords left right ≥ 0))
  hold (2 * left.length + right.length) do
    let lb ← ofWords left.length left
    let rb ← ofWords right.length right
    let r ← gcdBuffers fuel lb rb
    tick r.bits.length
    pure r.bits

/-- BigInteger.cpp:1661-1682: comparing (1662) is charged as if it ran to the end; the remainder (1671) and the array
with the divisor (1680) live until the end. -/
def gcdBits (fuel : Nat) (left right : List Nat) : Counted BigInt := do
  tick left.length
  lift (cassert (compareWords left right ≥ 0))
  if right.length = 1 then do
    let r0 ← lift (idx right 0)
    let temp ← remainderWord left r0
    let g ← gcd32 r0 temp
    lift (ofUInt32 g)
  else if right.length = 2 then hold left.length do
    let temp ← remainderVec left right
    let r1 ← lift (idx right 1)
    let r0 ← lift (idx right 0)
    let t1 ← lift (idx temp 1)
    let t0 ← lift (idx temp 0)
    let g ← gcd64 (u64 (r1 <<< 32) ||| r0) (u64 (t1 <<< 32) ||| t0)
    lift (ofUInt64 g)
  else hold left.length do
    let bits ← gcdVec fuel left right
    ofMagnitude bits false

/-- BigInteger.cpp:1621-1659 `greatest_common_divisor(const BigInteger&, const BigInteger&)`: comparing (1654) is
charged as if it ran to the end. -/
def gcd (fuel : Nat) (a b : BigInt) : Counted BigInt := do
  lift (assertValid a)
  lift (assertValid b)
  if a.bits = [] ∧ b.bits = [] then do
    let x ← lift (cabs a.sign)
    let y ← lift (cabs b.sign)
    let g ← gcd32 x y
    lift (ofUInt32 g)
  else if a.bits = [] then
    if a.sign ≠ 0 then do
      let x ← lift (cabs a.sign)
      let r ← gcdWord b.bits x
      lift (ofUInt32 r)
    else ofMagnitude b.bits false
  else if b.bits = [] then
    if b.sign ≠ 0 then do
      let x ← lift (cabs b.sign)
      let r ← gcdWord a.bits x
      lift (ofUInt32 r)
    else ofMagnitude a.bits false
  else do
    tick (min a.bits.length b.bits.length)
    if compareWords a.bits b.bits < 0 then gcdBits fuel b.bits a.bits
    else gcdBits fuel a.bits b.bits

end Cost
end BigIntegerCpp
