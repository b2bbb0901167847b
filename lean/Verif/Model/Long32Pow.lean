import Verif.Model.Long32
import Verif.Model.Pow
/-
`pow` and `mod_pow` where `long` has 32 bits (see Model/Long32.lean).  BitsBuffer.cpp, FastReducer.cpp and PowMod.cpp do
not mention the type; they are written again because they call `multiply`, `square` and `subtract_self`, which do.
Unchanged: the constructors of `BitsBuffer`, `Apply`, `Reduce(const uint_array&)` (division only), the constructor of
`FastReducer` (division only), `pow_bound`, the `mod_pow` of a modulus of one word, and the reduction of the base.
-/
namespace BigIntegerCpp.Long32
variable [Cfg]

/-- As `BitsBuffer.multiplyMem`: `multiply` on pointers into whole buffers (SquMul.cpp:171-305). -/
def multiplyMem (left : List Nat) (leftLength : Nat) (right : List Nat) (rightLength : Nat)
    (bits : List Nat) (bitsLength : Nat) : Res (List Nat) := do
  let l ← slice left 0 leftLength
  let r ← slice right 0 rightLength
  let b ← slice bits 0 bitsLength
  let b ← mulCore l r b rightLength
  .ok (b ++ bits.drop bitsLength)

/-- BitsBuffer.cpp:16-26 `MultiplySelf`. -/
def multiplySelf (self value temp : BitsBuffer) : Res (BitsBuffer × BitsBuffer) := do
  let t ← (if self.length < value.length then
      multiplyMem value.bits value.length self.bits self.length temp.bits (self.length + value.length)
    else
      multiplyMem self.bits self.length value.bits value.length temp.bits (self.length + value.length))
  self.apply ⟨t, temp.length⟩ (self.length + value.length)

/-- BitsBuffer.cpp:28-34 `SquareSelf`. -/
def squareSelf (self temp : BitsBuffer) : Res (BitsBuffer × BitsBuffer) := do
  let v ← slice self.bits 0 self.length
  let b ← slice temp.bits 0 (self.length + self.length)
  let b ← sqCore v b self.length
  self.apply ⟨b ++ temp.bits.drop (self.length + self.length), temp.length⟩ (self.length + self.length)

/-- FastReducer.cpp:26-43 `DivMul`. -/
def divMul (left : List Nat) (leftLength : Nat) (right : List Nat) (rightLength bitsSize k : Nat) :
    Res (List Nat × Nat) :=
  let bits := List.replicate bitsSize 0
  if leftLength > k then do
    let leftLength := leftLength - k
    let bits ← (if leftLength < rightLength then
        multiplyMem right rightLength (left.drop k) leftLength bits (leftLength + rightLength)
      else
        multiplyMem (left.drop k) leftLength right rightLength bits (leftLength + rightLength))
    let n ← actualLength bits (leftLength + rightLength)
    .ok (bits, n)
  else .ok (bits, 0)

/-- AddSub.cpp:159-173 `subtract_self`: `digit` and `carry` are `long`s, so `digit >> 32` is undefined. -/
def subtractSelf : (left right : List Nat) → (n : Nat) → Int → Res (List Nat)
  | left, [], n, c => do
    let l ← slice left 0 n
    let (r, _) ← carryLoop true l c
    .ok (r ++ left.drop n)
  | [], _ :: _, _, _ => .ub .outOfBounds
  | x :: xs, y :: ys, n, c => do
    let digit := toLong32 ((x : Int) + c - y)
    let c ← shr digit 32
    let r ← subtractSelf xs ys (n - 1) c
    .ok (u32i digit :: r)

/-- FastReducer.cpp:59-62. -/
def subModLoop (modulus : List Nat) : Nat → List Nat → Nat → Res Nat
  | 0, _, _ => .diverge
  | fuel + 1, left, leftLength => do
    let l ← slice left 0 leftLength
    if compareWords l modulus ≥ 0 then do
      let left ← subtractSelf left modulus leftLength 0
      let leftLength ← actualLength left leftLength
      subModLoop modulus fuel left leftLength
    else .ok leftLength

/-- FastReducer.cpp:45-66 `SubMod`. -/
def subMod (left : List Nat) (leftLength : Nat) (right : List Nat) (rightLength : Nat)
    (modulus : List Nat) (k : Nat) : Res Nat := do
  let leftLength := if leftLength > k then k else leftLength
  let rightLength := if rightLength > k then k else rightLength
  let r ← slice right 0 rightLength
  let left ← subtractSelf left r leftLength 0
  let leftLength ← actualLength left leftLength
  subModLoop modulus (val left + 1) left leftLength

/-- FastReducer.cpp:17-24 `Reduce(uint_array value, int length)`. -/
def fastReduce (fr : FastReducer) (value : List Nat) (length : Nat) : Res Nat :=
  if length < fr.modulus.length then .ok length
  else do
    let m := fr.modulus.length
    let (q1, l1) ← divMul value length fr.mu fr.muLength (m * 2 + 2) (m - 1)
    let (q2, l2) ← divMul q1 l1 fr.modulus m (m * 2 + 1) (m + 1)
    subMod value length q2 l2 fr.modulus (m + 1)

/-- BitsBuffer.cpp:36-38 `Reduce(FastReducer&)`. -/
def reduceFast (self : BitsBuffer) (fr : FastReducer) : Res BitsBuffer := do
  let n ← fastReduce fr self.bits self.length
  .ok ⟨self.bits, n⟩

/-- PowMod.cpp:51-59, 162-175 and 229-242. -/
def powLoop (red : BitsBuffer → Res BitsBuffer) (power : Nat) (value result temp : BitsBuffer) :
    Res BitsBuffer :=
  if _h : power = 0 then .ok result
  else do
    let (result, temp) ← (if power % 2 = 1 then do
        let (r, t) ← multiplySelf result value temp
        let r ← red r
        .ok (r, t)
      else .ok (result, temp))
    let (value, temp) ← (if power ≠ 1 then do
        let (v, t) ← squareSelf value temp
        let v ← red v
        .ok (v, t)
      else .ok (value, temp))
    powLoop red (power / 2) value result temp
termination_by power

/-- PowMod.cpp:149-157, 216-224. -/
def powBits (red : BitsBuffer → Res BitsBuffer) :
    Nat → Nat → BitsBuffer × BitsBuffer × BitsBuffer → Res (BitsBuffer × BitsBuffer × BitsBuffer)
  | 0, _, st => .ok st
  | n + 1, p, (value, result, temp) => do
    let (result, temp) ← (if p % 2 = 1 then do
        let (r, t) ← multiplySelf result value temp
        let r ← red r
        .ok (r, t)
      else .ok (result, temp))
    let (value, temp) ← squareSelf value temp
    let value ← red value
    powBits red n (p / 2) (value, result, temp)

/-- PowMod.cpp:147-158, 215-225. -/
def powWords (red : BitsBuffer → Res BitsBuffer) :
    List Nat → BitsBuffer × BitsBuffer × BitsBuffer → Res (BitsBuffer × BitsBuffer × BitsBuffer)
  | [], st => .ok st
  | p :: ps, st => do
    let st ← powBits red 32 p st
    powWords red ps st

/-- PowMod.cpp:6-26 `pow(uint32_t, uint32_t)`, `pow(const uint_array&, uint32_t)` and `pow_core`. -/
def powCalc (mk : Nat → Res BitsBuffer) (valueLength power : Nat) : Res (List Nat) := do
  let size ← powBound power valueLength 1
  let v ← mk size
  let temp ← BitsBuffer.ofWord size 0
  let result ← BitsBuffer.ofWord size 1
  let r ← powLoop (fun b => .ok b) power v result temp
  .ok r.bits

/-- BigInteger.cpp:1543-1569 `pow`. -/
def pow (a : BigInt) (exponent : Int) : Res BigInt :=
  if exponent < 0 then .throw .outOfRange
  else do
    assertValid a
    if exponent = 0 then .ok oneInt
    else if exponent = 1 then .ok a
    else if a.bits = [] ∧ a.sign = 1 then .ok a
    else if a.bits = [] ∧ a.sign = -1 then .ok (if exponent % 2 ≠ 0 then a else oneInt)
    else if a.bits = [] ∧ a.sign = 0 then .ok a
    else do
      let bits ← (if a.bits = [] then do
          let s ← cabs a.sign
          powCalc (fun size => BitsBuffer.ofWord size s) 1 exponent.toNat
        else do
          let _ ← sizeInt a.bits.length
          powCalc (fun size => BitsBuffer.ofWords size a.bits) a.bits.length exponent.toNat)
      ofMagnitude bits (a.sign < 0 ∧ exponent % 2 ≠ 0)

/-- PowMod.cpp:115-128. -/
def powCoreMod (power : Nat) (modulus : List Nat) (value : BitsBuffer) : Res (List Nat) := do
  let size := value.bits.length
  let temp ← BitsBuffer.ofWord size 0
  let result ← BitsBuffer.ofWord size 1
  if modulus.length < ReducerThreshold then do
    let r ← powLoop (fun b => b.reduce modulus) power value result temp
    .ok r.bits
  else do
    let fr ← FastReducer.make modulus
    let r ← powLoop (fun b => reduceFast b fr) power value result temp
    .ok r.bits

/-- PowMod.cpp:197-210 with 144-160 and 212-227. -/
def powCoreModWords (power modulus : List Nat) (value : BitsBuffer) : Res (List Nat) := do
  let size := value.bits.length
  let temp ← BitsBuffer.ofWord size 0
  let result ← BitsBuffer.ofWord size 1
  let last ← idx power (power.length - 1)
  if modulus.length < ReducerThreshold then do
    let red := fun b : BitsBuffer => b.reduce modulus
    let (value, result, temp) ← powWords red power.dropLast (value, result, temp)
    let r ← powLoop red last value result temp
    .ok r.bits
  else do
    let fr ← FastReducer.make modulus
    let red := fun b : BitsBuffer => reduceFast b fr
    let (value, result, temp) ← powWords red power (value, result, temp)
    let r ← powLoop red last value result temp
    .ok r.bits

/-- BigInteger.cpp:1572-1615 `mod_pow`. -/
def modPow (a e m : BigInt) : Res BigInt :=
  if e.sign < 0 then .throw .outOfRange
  else do
    assertValid a
    assertValid e
    assertValid m
    let even ← e.isEven
    let negate := decide (a.sign < 0) && !even
    if m.bits = [] then do
      let ms ← cabs m.sign
      let v ← (if a.bits = [] then cabs a.sign else remainderWord a.bits ms)
      let bits ← (if e.bits = [] then do
          let p ← cabs e.sign
          powModWord p ms v 1
        else powModWords ms e.bits (v, 1))
      ofUInt32 (if negate then u32i (-1 * (bits : Int)) else bits)
    else do
      let v ← (if a.bits = [] then do
          let s ← cabs a.sign
          let size ← sizeInt (m.bits.length + m.bits.length)
          BitsBuffer.ofWord size s
        else modPowBase a.bits m.bits)
      let bits ← (if e.bits = [] then do
          let p ← cabs e.sign
          powCoreMod p m.bits v
        else powCoreModWords e.bits m.bits v)
      ofMagnitude bits negate

end BigIntegerCpp.Long32
