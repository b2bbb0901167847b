import Verif.Model.Cost
import Verif.Model.Pow
/-
Powers and modular powers again, with what they cost.  Everything else is as in Model/Pow.lean; that
the outcomes are the same is proved in Lemmas/CostPow.lean (`…_res`).

A step is one iteration of a loop, or one word of an array that is filled or copied.
-/
namespace BigIntegerCpp
open Counted
namespace Cost
variable [Cfg]

/-- PowMod.cpp:61-65, charged as if it ran to the end. -/
def actualLength (value : List Nat) (length : Nat) : Counted Nat := do
  tick length
  lift (BigIntegerCpp.actualLength value length)

/-- BitsBuffer.cpp:4-8: the array is filled with zeros; it is counted as storage in the caller. -/
def ofWord (size value : Nat) : Counted BitsBuffer := do
  tick size
  lift (BitsBuffer.ofWord size value)

/-- BitsBuffer.cpp:10-14: the argument is copied (10), measured (11), the array is filled with zeros
(12) and the words are copied into it (13). -/
def ofWords (size : Nat) (value : List Nat) : Counted BitsBuffer := scope value.length do
  tick (value.length + size + trimLen value)
  lift (BitsBuffer.ofWords size value)

/-- `BigIntegerCalculator::multiply` on ranges of buffers, as in Model/Pow.lean. -/
def multiplyMem (left : List Nat) (leftLength : Nat) (right : List Nat) (rightLength : Nat)
    (bits : List Nat) (bitsLength : Nat) : Counted (List Nat) := do
  let l ← lift (slice left 0 leftLength)
  let r ← lift (slice right 0 rightLength)
  let b ← lift (slice bits 0 bitsLength)
  let b ← mulCore l r b rightLength
  pure (b ++ bits.drop bitsLength)

/-- BitsBuffer.cpp:79-86 `Apply`: the words in use are cleared (80), the two arrays are exchanged with
three copies and a temporary one (82-84), the new length is measured (85). -/
def apply (self temp : BitsBuffer) (maxLength : Nat) : Counted (BitsBuffer × BitsBuffer) := do
  let _ ← lift (slice self.bits 0 self.length)
  tick self.length
  let cleared := List.replicate self.length 0 ++ self.bits.drop self.length
  scope temp.bits.length do
    tick (self.bits.length + temp.bits.length)
    let len ← actualLength temp.bits maxLength
    pure (⟨temp.bits, len⟩, ⟨cleared, temp.length⟩)

/-- BitsBuffer.cpp:16-26 `MultiplySelf`. -/
def multiplySelf (self value temp : BitsBuffer) : Counted (BitsBuffer × BitsBuffer) := do
  let t ← (if self.length < value.length then
      multiplyMem value.bits value.length self.bits self.length temp.bits (self.length + value.length)
    else
      multiplyMem self.bits self.length value.bits value.length temp.bits (self.length + value.length))
  apply self ⟨t, temp.length⟩ (self.length + value.length)

/-- BitsBuffer.cpp:28-34 `SquareSelf`. -/
def squareSelf (self temp : BitsBuffer) : Counted (BitsBuffer × BitsBuffer) := do
  let v ← lift (slice self.bits 0 self.length)
  let b ← lift (slice temp.bits 0 (self.length + self.length))
  let b ← sqCore v b self.length
  apply self ⟨b ++ temp.bits.drop (self.length + self.length), temp.length⟩ (self.length + self.length)

/-- BitsBuffer.cpp:40-45 `Reduce(const uint_array&)`: the division works in place. -/
def reduce (self : BitsBuffer) (modulus : List Nat) : Counted BitsBuffer :=
  if self.length ≥ modulus.length then do
    let l ← lift (slice self.bits 0 self.length)
    let (l, _) ← divideCore l modulus []
    let bits := l ++ self.bits.drop self.length
    let len ← actualLength bits modulus.length
    pure ⟨bits, len⟩
  else pure self

/-- PowMod.cpp:28-49 `pow_bound`, one step per iteration. -/
def powBound (power valueLength resultLength : Nat) : Counted Nat :=
  if _h : power = 0 then pure resultLength
  else do
    tick 1
    let resultLength ← lift (if power % 2 = 1 then
        if valueLength < 2147483647 - resultLength then .ok (resultLength + valueLength)
        else .throw .overflowError
      else .ok resultLength)
    let valueLength ← lift (if power ≠ 1 then
        if valueLength < 2147483647 - valueLength then .ok (valueLength + valueLength)
        else .throw .overflowError
      else .ok valueLength)
    powBound (power / 2) valueLength resultLength
termination_by power

/-- PowMod.cpp:51-59 and 162-175, one more step per iteration. -/
def powLoop (red : BitsBuffer → Counted BitsBuffer) (power : Nat) (value result temp : BitsBuffer) :
    Counted BitsBuffer :=
  if _h : power = 0 then pure result
  else do
    tick 1
    let (result, temp) ← (if power % 2 = 1 then do
        let (r, t) ← multiplySelf result value temp
        let r ← red r
        pure (r, t)
      else pure (result, temp))
    let (value, temp) ← (if power ≠ 1 then do
        let (v, t) ← squareSelf value temp
        let v ← red v
        pure (v, t)
      else pure (value, temp))
    powLoop red (power / 2) value result temp
termination_by power

/-- PowMod.cpp:149-157, one more step per bit. -/
def powBits (red : BitsBuffer → Counted BitsBuffer) :
    Nat → Nat → BitsBuffer × BitsBuffer × BitsBuffer → Counted (BitsBuffer × BitsBuffer × BitsBuffer)
  | 0, _, st => pure st
  | n + 1, p, (value, result, temp) => do
    tick 1
    let (result, temp) ← (if p % 2 = 1 then do
        let (r, t) ← multiplySelf result value temp
        let r ← red r
        pure (r, t)
      else pure (result, temp))
    let (value, temp) ← squareSelf value temp
    let value ← red value
    powBits red n (p / 2) (value, result, temp)

/-- PowMod.cpp:147-158. -/
def powWords (red : BitsBuffer → Counted BitsBuffer) :
    List Nat → BitsBuffer × BitsBuffer × BitsBuffer → Counted (BitsBuffer × BitsBuffer × BitsBuffer)
  | [], st => pure st
  | p :: ps, st => do
    let st ← powBits red 32 p st
    powWords red ps st

/-- PowMod.cpp:6-26: the three buffers live until the end; the result is a copy (25), counted with them. -/
def powCalc (mk : Nat → Counted BitsBuffer) (valueLength power : Nat) : Counted (List Nat) := do
  let size ← powBound power valueLength 1
  hold (4 * size) do
    let v ← mk size
    let temp ← ofWord size 0
    let result ← ofWord size 1
    let r ← powLoop (fun b => pure b) power v result temp
    tick r.bits.length
    pure r.bits

/-- BigInteger.cpp:1543-1569 `pow`: returning an operand copies it; the array with the power lives
until the end. -/
def pow (a : BigInt) (exponent : Int) : Counted BigInt :=
  if exponent < 0 then lift (.throw .outOfRange)
  else do
    lift (assertValid a)
    if exponent = 0 then pure oneInt
    else if exponent = 1 then do
      tick a.bits.length
      pure a
    else if a.bits = [] ∧ a.sign = 1 then pure a
    else if a.bits = [] ∧ a.sign = -1 then pure (if exponent % 2 ≠ 0 then a else oneInt)
    else if a.bits = [] ∧ a.sign = 0 then pure a
    else do
      let bits ← (if a.bits = [] then do
          let s ← lift (cabs a.sign)
          powCalc (fun size => ofWord size s) 1 exponent.toNat
        else do
          let _ ← lift (sizeInt a.bits.length)
          powCalc (fun size => ofWords size a.bits) a.bits.length exponent.toNat)
      hold bits.length (ofMagnitude bits (a.sign < 0 ∧ exponent % 2 ≠ 0))

/-- PowMod.cpp:67-84, one step per iteration. -/
def powModWord (power modulus value result : Nat) : Counted Nat :=
  if _h : power = 0 then
    lift (if modulus = 0 then .throw .divideByZero else .ok (u32 (result % modulus)))
  else do
    tick 1
    let result ← lift (if power % 2 = 1 then
        if modulus = 0 then .throw .divideByZero else .ok (u64 (result * value) % modulus)
      else .ok result)
    let value ← lift (if power ≠ 1 then
        if modulus = 0 then .throw .divideByZero else .ok (u64 (value * value) % modulus)
      else .ok value)
    powModWord (power / 2) modulus value result
termination_by power

/-- PowMod.cpp:94-99, one step per bit. -/
def powModBits (modulus : Nat) : Nat → Nat → Nat × Nat → Counted (Nat × Nat)
  | 0, _, st => pure st
  | n + 1, p, (value, result) => do
    tick 1
    let result ← lift (if p % 2 = 1 then
        if modulus = 0 then .ub .divByZero else .ok (u64 (result * value) % modulus)
      else .ok result)
    let value ← lift (if modulus = 0 then .ub .divByZero else .ok (u64 (value * value) % modulus))
    powModBits modulus n (p / 2) (value, result)

/-- PowMod.cpp:91-102. -/
def powModWords (modulus : Nat) : List Nat → Nat × Nat → Counted Nat
  | [], _ => lift (.ub .outOfBounds)
  | [p], (value, result) => powModWord p modulus value result
  | p :: ps, st => do
    let st ← powModBits modulus 32 p st
    powModWords modulus ps st

/-- AddSub.cpp:159-173 `subtract_self`. -/
def subtractSelf : (left right : List Nat) → (n : Nat) → Int → Counted (List Nat)
  | left, [], n, c => do
    let l ← lift (slice left 0 n)
    let (r, _) ← carrySelf l c
    pure (r ++ left.drop n)
  | [], _ :: _, _, _ => lift (.ub .outOfBounds)
  | x :: xs, y :: ys, n, c => do
    tick 1
    let digit ← lift (long ((x : Int) + c - y))
    let r ← subtractSelf xs ys (n - 1) (digit / 4294967296)
    pure (u32i digit :: r)

/-- FastReducer.cpp:59-62: every round compares (counted as if all words of the modulus were looked at) and
subtracts. -/
def subModLoop (modulus : List Nat) : Nat → List Nat → Nat → Counted Nat
  | 0, _, _ => lift .diverge
  | fuel + 1, left, leftLength => do
    tick (1 + modulus.length)
    let l ← lift (slice left 0 leftLength)
    if compareWords l modulus ≥ 0 then do
      let left ← subtractSelf left modulus leftLength 0
      let leftLength ← actualLength left leftLength
      subModLoop modulus fuel left leftLength
    else pure leftLength

/-- FastReducer.cpp:45-66 `SubMod`: the three arrays are passed by value; line 64 fills as many words as are
returned. -/
def subMod (left : List Nat) (leftLength : Nat) (right : List Nat) (rightLength : Nat)
    (modulus : List Nat) (k : Nat) : Counted Nat := scope (left.length + right.length + modulus.length) do
  let leftLength := if leftLength > k then k else leftLength
  let rightLength := if rightLength > k then k else rightLength
  let r ← lift (slice right 0 rightLength)
  let left ← subtractSelf left r leftLength 0
  let leftLength ← actualLength left leftLength
  let n ← subModLoop modulus (val left + 1) left leftLength
  tick n
  pure n

/-- FastReducer.cpp:26-43 `DivMul`: the target, a member of the reducer, is cleared whatever is multiplied. -/
def divMul (left : List Nat) (leftLength : Nat) (right : List Nat) (rightLength bitsSize k : Nat) :
    Counted (List Nat × Nat) := do
  tick bitsSize
  let bits := List.replicate bitsSize 0
  if leftLength > k then do
    let leftLength := leftLength - k
    let bits ← (if leftLength < rightLength then
        multiplyMem right rightLength (left.drop k) leftLength bits (leftLength + rightLength)
      else
        multiplyMem (left.drop k) leftLength right rightLength bits (leftLength + rightLength))
    let n ← actualLength bits (leftLength + rightLength)
    pure (bits, n)
  else pure (bits, 0)

/-- FastReducer.cpp:17-24 `Reduce`, called by BitsBuffer.cpp:36-38: the buffer is passed by value, even when
there is nothing to do. -/
def reduceFast (self : BitsBuffer) (fr : FastReducer) : Counted BitsBuffer := scope self.bits.length do
  let n ← (if self.length < fr.modulus.length then pure self.length
    else do
      let m := fr.modulus.length
      let (q1, l1) ← divMul self.bits self.length fr.mu fr.muLength (m * 2 + 2) (m - 1)
      let (q2, l2) ← divMul q1 l1 fr.modulus m (m * 2 + 1) (m + 1)
      subMod self.bits self.length q2 l2 fr.modulus (m + 1))
  pure ⟨self.bits, n⟩

/-- FastReducer.cpp:4-15 the constructor: its parameter and the dividend `r` are temporary; the copy of the
modulus (9), the two members (11-12) and the length of the quotient (14) come after the division. -/
def reducer (modulus : List Nat) : Counted FastReducer := scope (modulus.length + (modulus.length * 2 + 1)) do
  let r := List.replicate (modulus.length * 2) 0 ++ [1]
  let mu ← divideVec r modulus
  tick (modulus.length + (modulus.length * 2 + 2) + (modulus.length * 2 + 1))
  let _ ← lift (sizeInt mu.length)
  tick mu.length
  pure ⟨modulus, mu, trimLen mu⟩

/-- PowMod.cpp:115-128: the copy of the result is the last line.  The members of the `FastReducer` (the modulus,
the quotient and the two buffers) have six times the length of the modulus and five words more. -/
def powCoreMod (power : Nat) (modulus : List Nat) (value : BitsBuffer) : Counted (List Nat) := do
  let size := value.bits.length
  if modulus.length < ReducerThreshold then do
    let temp ← ofWord size 0
    let result ← ofWord size 1
    let r ← powLoop (fun b => reduce b modulus) power value result temp
    tick r.bits.length
    pure r.bits
  else do
    let temp ← ofWord size 0
    let result ← ofWord size 1
    let r ← hold (6 * modulus.length + 5) (do
      let fr ← reducer modulus
      powLoop (fun b => reduceFast b fr) power value result temp)
    tick r.bits.length
    pure r.bits

/-- PowMod.cpp:197-210 with 144-160 and 212-227.  As in Model/Pow.lean the loop with a `FastReducer` runs over
every word of the exponent and then once more over the last one. -/
def powCoreModWords (power modulus : List Nat) (value : BitsBuffer) : Counted (List Nat) := do
  let size := value.bits.length
  if modulus.length < ReducerThreshold then do
    let temp ← ofWord size 0
    let result ← ofWord size 1
    let last ← lift (idx power (power.length - 1))
    let red := fun b : BitsBuffer => reduce b modulus
    let (value, result, temp) ← powWords red power.dropLast (value, result, temp)
    let r ← powLoop red last value result temp
    tick r.bits.length
    pure r.bits
  else do
    let temp ← ofWord size 0
    let result ← ofWord size 1
    let last ← lift (idx power (power.length - 1))
    let r ← hold (6 * modulus.length + 5) (do
      let fr ← reducer modulus
      let red := fun b : BitsBuffer => reduceFast b fr
      let (value, result, temp) ← powWords red power (value, result, temp)
      powLoop red last value result temp)
    tick r.bits.length
    pure r.bits

/-- PowMod.cpp:130-142, 183-195: the remainder is a temporary array of the length of the base. -/
def modPowBase (value modulus : List Nat) : Counted BitsBuffer := do
  let size ← lift (sizeInt (modulus.length + modulus.length))
  if value.length > modulus.length then hold value.length do
    let tmp ← remainderVec value modulus
    ofWords size tmp
  else ofWords size value

/-- BigInteger.cpp:1572-1615 `mod_pow`: the three buffers and the array with the power have twice the
length of the modulus. -/
def modPow (a e m : BigInt) : Counted BigInt :=
  if e.sign < 0 then lift (.throw .outOfRange)
  else do
    lift (assertValid a)
    lift (assertValid e)
    lift (assertValid m)
    let even ← lift e.isEven
    let negate := decide (a.sign < 0) && !even
    if m.bits = [] then do
      let ms ← lift (cabs m.sign)
      let v ← (if a.bits = [] then lift (cabs a.sign) else remainderWord a.bits ms)
      let bits ← (if e.bits = [] then do
          let p ← lift (cabs e.sign)
          powModWord p ms v 1
        else powModWords ms e.bits (v, 1))
      lift (ofUInt32 (if negate then u32i (-1 * (bits : Int)) else bits))
    else hold (8 * m.bits.length) do
      let v ← (if a.bits = [] then do
          let s ← lift (cabs a.sign)
          let size ← lift (sizeInt (m.bits.length + m.bits.length))
          ofWord size s
        else modPowBase a.bits m.bits)
      let bits ← (if e.bits = [] then do
          let p ← lift (cabs e.sign)
          powCoreMod p m.bits v
        else powCoreModWords e.bits m.bits v)
      ofMagnitude bits negate

end Cost
end BigIntegerCpp
