import Verif.Model.Pow
/-
Model of src/BigIntegerCalculator/GcdInv.cpp and `greatest_common_divisor` in src/BigInteger.cpp.
-/
namespace BigIntegerCpp
variable [Cfg]

/-- GcdInv.cpp:4-16 `gcd(uint32_t, uint32_t)`. -/
def gcd32 (left right : Nat) : Nat :=
  if _h : right = 0 then left else gcd32 right (left % right)
termination_by right
decreasing_by exact Nat.mod_lt _ (by omega)

/-- GcdInv.cpp:18-31 `gcd(uint64_t, uint64_t)`. -/
def gcd64 (left right : Nat) : Nat :=
  if _h : right > 0xFFFFFFFF then gcd64 right (left % right)
  else if right ≠ 0 then gcd32 (u32 right) (u32 (left % right))
  else left
termination_by right
decreasing_by exact Nat.mod_lt _ (by omega)

/-- GcdInv.cpp:33-43 `gcd(uint_array, uint32_t)`. -/
def gcdWord (left : List Nat) (right : Nat) : Res Nat := do
  cassert (left.length ≥ 1)
  cassert (right ≠ 0)
  let temp ← remainderWord left right
  .ok (gcd32 right temp)

/-- GcdInv.cpp:166-220 `extract_digits`: (x, y). -/
def extractDigits (xb yb : BitsBuffer) : Res (Nat × Nat) := do
  cassert (xb.length ≥ 3)
  cassert (yb.length ≥ 3)
  cassert (xb.length ≥ yb.length)
  if xb.length < 3 then .ub .outOfBounds else do
  let xh ← idx xb.bits (xb.length - 1)
  let xm ← idx xb.bits (xb.length - 2)
  let xl ← idx xb.bits (xb.length - 3)
  let (yh, ym, yl) ← (
    if xb.length = yb.length then do
      let yh ← idx yb.bits (yb.length - 1)
      let ym ← idx yb.bits (yb.length - 2)
      let yl ← idx yb.bits (yb.length - 3)
      .ok (yh, ym, yl)
    else if xb.length = yb.length + 1 then do
      let ym ← idx yb.bits (yb.length - 1)
      let yl ← idx yb.bits (yb.length - 2)
      .ok (0, ym, yl)
    else if xb.length = yb.length + 2 then do
      let yl ← idx yb.bits (yb.length - 1)
      .ok (0, 0, yl)
    else .ok (0, 0, 0))
  let z := leadingZeros xh
  if z ≥ 32 then .ub .badShift else do
  let x := (u64 (xh <<< (32 + z)) ||| u64 (xm <<< z) ||| (xl >>> (32 - z))) >>> 1
  let y := (u64 (yh <<< (32 + z)) ||| u64 (ym <<< z) ||| (yl >>> (32 - z))) >>> 1
  cassert (x ≥ y)
  .ok (x, y)

/-- State of Lehmer's guessing loop that survives it: `a b c d` and `iteration`. -/
structure Guess where
  a : Nat
  b : Nat
  c : Nat
  d : Nat
  iteration : Nat
  deriving DecidableEq, Repr

/-- GcdInv.cpp:81-129: Lehmer's guessing.  `y` shrinks in every full round; the test `y' < y` is
there for Lean's termination check. -/
def lehmerGuess (x y : Nat) (g : Guess) : Res Guess :=
  if y = 0 then .ok g
  else
    let q := x / y
    if q > 0xFFFFFFFF then .ok g else
    let r := u64 (g.a + u64 (q * g.c))
    let s := u64 (g.b + u64 (q * g.d))
    let t := u64sub x (u64 (q * y))
    if r > 0x7FFFFFFF ∨ s > 0x7FFFFFFF then .ok g else
    if t < s ∨ u64 (t + r) > u64sub y g.c then .ok g else
    let g := { g with a := u32 r, b := u32 s, iteration := g.iteration + 1 }
    let x := t
    if x = g.b then .ok g else
    if x = 0 then .ub .divByZero else
    let q := y / x
    if q > 0xFFFFFFFF then .ok g else
    let r := u64 (g.d + u64 (q * g.b))
    let s := u64 (g.c + u64 (q * g.a))
    let t := u64sub y (u64 (q * x))
    if r > 0x7FFFFFFF ∨ s > 0x7FFFFFFF then .ok g else
    if t < s ∨ u64 (t + r) > u64sub x g.b then .ok g else
    let g := { g with d := u32 r, c := u32 s, iteration := g.iteration + 1 }
    if t = g.c then .ok g else
    if _h : t < y then lehmerGuess x t g else .diverge
termination_by y

/-- GcdInv.cpp:237-244: the loop of `lehmer_core` on its local copies `x`, `y`. -/
def lehmerLoop (a b c d : Int) : Nat → List Nat → List Nat → Int → Int → Res Unit
  | 0, _, _, _, _ => .ok ()
  | n + 1, x :: xs, y :: ys, xc, yc => do
    let p ← long (a * x)
    let q ← long (b * y)
    let e ← long (p - q)
    let xDigit ← long (e + xc)
    let p ← long (d * y)
    let q ← long (c * x)
    let e ← long (p - q)
    let yDigit ← long (e + yc)
    lehmerLoop a b c d n xs ys (xDigit / 4294967296) (yDigit / 4294967296)
  | _ + 1, _, _, _, _ => .ub .outOfBounds

/-- BitsBuffer.cpp:73-77 `Refresh`: fills the first `_length - maxLength` words with the number
`maxLength`. -/
def BitsBuffer.refresh (self : BitsBuffer) (maxLength : Nat) : Res BitsBuffer := do
  let bits ← (if self.length > maxLength then do
      let n := self.length - maxLength
      let _ ← slice self.bits 0 n
      .ok (List.replicate n (u32 maxLength) ++ self.bits.drop n)
    else .ok self.bits)
  let len ← actualLength bits maxLength
  .ok ⟨bits, len⟩

/-- GcdInv.cpp:222-248 `lehmer_core`.  `GetBits()` (BitsBuffer.h:30) returns a copy, so the
digits computed by the loop are thrown away; only `Refresh` acts on the buffers. -/
def lehmerCore (xb yb : BitsBuffer) (g : Guess) : Res (BitsBuffer × BitsBuffer) := do
  cassert (xb.length ≥ 1)
  cassert (yb.length ≥ 1)
  cassert (xb.length ≥ yb.length)
  cassert (g.a ≤ 0x7FFFFFFF ∧ g.b ≤ 0x7FFFFFFF)
  cassert (g.c ≤ 0x7FFFFFFF ∧ g.d ≤ 0x7FFFFFFF)
  lehmerLoop g.a g.b g.c g.d yb.length xb.bits yb.bits 0 0
  let length := yb.length
  let xb ← xb.refresh length
  let yb ← yb.refresh length
  .ok (xb, yb)

/-- `left.Reduce(right)` for two buffers (BitsBuffer.cpp:47-54). -/
def BitsBuffer.reduceBy (self modulus : BitsBuffer) : Res BitsBuffer := do
  let m ← slice modulus.bits 0 modulus.length
  self.reduce m

/-- BitsBuffer.cpp:56-64 `Overwrite(uint64_t)`. -/
def BitsBuffer.overwrite (self : BitsBuffer) (value : Nat) : Res BitsBuffer := do
  let bits ← (if self.length > 2 then do
      let _ ← slice self.bits 0 (self.length - 2)
      .ok (List.replicate (self.length - 2) 2 ++ self.bits.drop (self.length - 2))
    else .ok self.bits)
  let lo := u32 value
  let hi := u32 (value >>> 32)
  let bits ← put bits 0 lo
  let bits ← put bits 1 hi
  .ok ⟨bits, if hi ≠ 0 then 2 else if lo ≠ 0 then 1 else 0⟩

/-- GcdInv.cpp:70-149: the main loop; the first argument bounds the number of iterations. -/
def gcdLoop : Nat → BitsBuffer → BitsBuffer → Res (BitsBuffer × BitsBuffer)
  | 0, _, _ => .diverge
  | fuel + 1, left, right =>
    if right.length > 2 then do
      let (x, y) ← extractDigits left right
      let g ← lehmerGuess x y ⟨1, 0, 0, 1, 0⟩
      if g.b = 0 then do
        let left ← left.reduceBy right
        gcdLoop fuel right left
      else do
        let (left, right) ← lehmerCore left right g
        if g.iteration % 2 = 1 then gcdLoop fuel right left else gcdLoop fuel left right
    else .ok (left, right)

/-- GcdInv.cpp:58-164 `gcd(BitsBuffer&, BitsBuffer&)`: the new `left`. -/
def gcdBuffers (fuel : Nat) (left right : BitsBuffer) : Res BitsBuffer := do
  cassert (left.length ≥ 2)
  cassert (right.length ≥ 2)
  cassert (left.length ≥ right.length)
  let (left, right) ← gcdLoop fuel left right
  if right.length > 0 then do
    let left ← left.reduceBy right
    let x1 ← idx right.bits 1
    let x0 ← idx right.bits 0
    let y1 ← idx left.bits 1
    let y0 ← idx left.bits 0
    left.overwrite (gcd64 (u64 (x1 <<< 32) ||| x0) (u64 (y1 <<< 32) ||| y0))
  else .ok left

/-- GcdInv.cpp:45-56 `gcd(uint_array, uint_array)`. -/
def gcdVec (fuel : Nat) (left right : List Nat) : Res (List Nat) := do
  cassert (left.length ≥ 2)
  cassert (right.length ≥ 2)
  cassert (compareWords left right ≥ 0)
  let lb ← BitsBuffer.ofWords left.length left
  let rb ← BitsBuffer.ofWords right.length right
  let r ← gcdBuffers fuel lb rb
  .ok r.bits

/-- BigInteger.cpp:1661-1682 `greatest_common_divisor(const uint_array&, const uint_array&)`. -/
def gcdBits (fuel : Nat) (left right : List Nat) : Res BigInt := do
  cassert (compareWords left right ≥ 0)
  if right.length = 1 then do
    let r0 ← idx right 0
    let temp ← remainderWord left r0
    ofUInt32 (gcd32 r0 temp)
  else if right.length = 2 then do
    let temp ← remainderVec left right
    let r1 ← idx right 1
    let r0 ← idx right 0
    let t1 ← idx temp 1
    let t0 ← idx temp 0
    ofUInt64 (gcd64 (u64 (r1 <<< 32) ||| r0) (u64 (t1 <<< 32) ||| t0))
  else do
    let bits ← gcdVec fuel left right
    ofMagnitude bits false

/-- BigInteger.cpp:1621-1659 `greatest_common_divisor(const BigInteger&, const BigInteger&)`. -/
def BigInt.gcd (fuel : Nat) (a b : BigInt) : Res BigInt := do
  assertValid a
  assertValid b
  if a.bits = [] ∧ b.bits = [] then do
    let x ← cabs a.sign
    let y ← cabs b.sign
    ofUInt32 (gcd32 x y)
  else if a.bits = [] then
    if a.sign ≠ 0 then do
      let x ← cabs a.sign
      let r ← gcdWord b.bits x
      ofUInt32 r
    else ofMagnitude b.bits false
  else if b.bits = [] then
    if b.sign ≠ 0 then do
      let x ← cabs b.sign
      let r ← gcdWord a.bits x
      ofUInt32 r
    else ofMagnitude a.bits false
  else if compareWords a.bits b.bits < 0 then gcdBits fuel b.bits a.bits
  else gcdBits fuel a.bits b.bits

end BigIntegerCpp
