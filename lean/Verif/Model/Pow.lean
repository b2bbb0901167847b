import Verif.Model.Core
/-
Model of src/BigIntegerCalculator/{BitsBuffer,FastReducer,PowMod}.cpp and of `pow`, `mod_pow` in
src/BigInteger.cpp.
-/
namespace BigIntegerCpp
variable [Cfg]

/-- BitsBuffer.h:8-44: `_bits` and `_length`. -/
structure BitsBuffer where
  bits : List Nat
  length : Nat
  deriving DecidableEq, Repr

/-- PowMod.cpp:61-65 `actual_length(value, length)`. -/
def actualLength (value : List Nat) (length : Nat) : Res Nat := do
  let v ← slice value 0 length
  .ok (trimLen v)

namespace BitsBuffer

/-- BitsBuffer.cpp:4-8 `BitsBuffer(int, uint32_t)`. -/
def ofWord (size value : Nat) : Res BitsBuffer := do
  let bits ← put (List.replicate size 0) 0 value
  .ok ⟨bits, if value ≠ 0 then 1 else 0⟩

/-- BitsBuffer.cpp:10-14 `BitsBuffer(int, uint_array)`. -/
def ofWords (size : Nat) (value : List Nat) : Res BitsBuffer := do
  let _ ← sizeInt value.length
  let length := trimLen value
  if length ≤ size then .ok ⟨value.take length ++ List.replicate (size - length) 0, length⟩
  else .ub .outOfBounds

/-- `BigIntegerCalculator::multiply` on pointer+length arguments taken from whole buffers; the
result is the new contents of the buffer `bits`. -/
def multiplyMem (left : List Nat) (leftLength : Nat) (right : List Nat) (rightLength : Nat)
    (bits : List Nat) (bitsLength : Nat) : Res (List Nat) := do
  let l ← slice left 0 leftLength
  let r ← slice right 0 rightLength
  let b ← slice bits 0 bitsLength
  let b ← mulCore l r b rightLength
  .ok (b ++ bits.drop bitsLength)

/-- BitsBuffer.cpp:79-86 `Apply`: (new `*this`, new `temp`). -/
def apply (self temp : BitsBuffer) (maxLength : Nat) : Res (BitsBuffer × BitsBuffer) := do
  let _ ← slice self.bits 0 self.length
  let cleared := List.replicate self.length 0 ++ self.bits.drop self.length
  let len ← actualLength temp.bits maxLength
  .ok (⟨temp.bits, len⟩, ⟨cleared, temp.length⟩)

/-- BitsBuffer.cpp:16-26 `MultiplySelf`: (new `*this`, new `temp`). -/
def multiplySelf (self value temp : BitsBuffer) : Res (BitsBuffer × BitsBuffer) := do
  let t ← (if self.length < value.length then
      multiplyMem value.bits value.length self.bits self.length temp.bits (self.length + value.length)
    else
      multiplyMem self.bits self.length value.bits value.length temp.bits (self.length + value.length))
  apply self ⟨t, temp.length⟩ (self.length + value.length)

/-- BitsBuffer.cpp:28-34 `SquareSelf`: (new `*this`, new `temp`). -/
def squareSelf (self temp : BitsBuffer) : Res (BitsBuffer × BitsBuffer) := do
  let v ← slice self.bits 0 self.length
  let b ← slice temp.bits 0 (self.length + self.length)
  let b ← sqCore v b self.length
  apply self ⟨b ++ temp.bits.drop (self.length + self.length), temp.length⟩ (self.length + self.length)

/-- BitsBuffer.cpp:40-45 `Reduce(const uint_array&)`, and 47-54 `Reduce(BitsBuffer&)` with
`modulus` the first `modulus._length` words of the other buffer. -/
def reduce (self : BitsBuffer) (modulus : List Nat) : Res BitsBuffer :=
  if self.length ≥ modulus.length then do
    let l ← slice self.bits 0 self.length
    let (l, _) ← divideCore l modulus []
    let bits := l ++ self.bits.drop self.length
    let len ← actualLength bits modulus.length
    .ok ⟨bits, len⟩
  else .ok self

end BitsBuffer

/-- FastReducer.h:10-20: the members that persist.  `_q1` and `_q2` are cleared at the start of
every `DivMul` (FastReducer.cpp:27), so only their sizes matter. -/
structure FastReducer where
  modulus : List Nat
  mu : List Nat
  muLength : Nat

namespace FastReducer

/-- FastReducer.cpp:4-15 the constructor. -/
def make (modulus : List Nat) : Res FastReducer := do
  let r := List.replicate (modulus.length * 2) 0 ++ [1]
  let mu ← divideVec r modulus
  let _ ← sizeInt mu.length
  .ok ⟨modulus, mu, trimLen mu⟩

/-- FastReducer.cpp:26-43 `DivMul`: the new `bits` (of size `bitsSize`) and the result. -/
def divMul (left : List Nat) (leftLength : Nat) (right : List Nat) (rightLength bitsSize k : Nat) :
    Res (List Nat × Nat) :=
  let bits := List.replicate bitsSize 0
  if leftLength > k then do
    let leftLength := leftLength - k
    let bits ← (if leftLength < rightLength then
        BitsBuffer.multiplyMem right rightLength (left.drop k) leftLength bits (leftLength + rightLength)
      else
        BitsBuffer.multiplyMem (left.drop k) leftLength right rightLength bits (leftLength + rightLength))
    let n ← actualLength bits (leftLength + rightLength)
    .ok (bits, n)
  else .ok (bits, 0)

/-- AddSub.cpp:159-173 `subtract_self` on the buffer `left`: the first loop covers the words of
`right` whatever `leftLength` is, the second stops at `leftLength` (here `n`, words left). -/
def subtractSelf : (left right : List Nat) → (n : Nat) → Int → Res (List Nat)
  | left, [], n, c => do
    let l ← slice left 0 n
    let (r, _) ← carrySelf l c
    .ok (r ++ left.drop n)
  | [], _ :: _, _, _ => .ub .outOfBounds
  | x :: xs, y :: ys, n, c => do
    let digit ← long ((x : Int) + c - y)
    let r ← subtractSelf xs ys (n - 1) (digit / 4294967296)
    .ok (u32i digit :: r)

/-- FastReducer.cpp:59-62: `while (compare(l, leftLength, m, ...) >= 0) subtract`. The first
argument bounds the number of iterations; every iteration subtracts the modulus, so `val left + 1`
is enough for a nonzero modulus. -/
def subModLoop (modulus : List Nat) : Nat → List Nat → Nat → Res Nat
  | 0, _, _ => .diverge
  | fuel + 1, left, leftLength => do
    let l ← slice left 0 leftLength
    if compareWords l modulus ≥ 0 then do
      let left ← subtractSelf left modulus leftLength 0
      let leftLength ← actualLength left leftLength
      subModLoop modulus fuel left leftLength
    else .ok leftLength

/-- FastReducer.cpp:45-66 `SubMod`.  `left` is passed by value: the caller's array does not
change, only the length comes back.  The final `std::fill` (64) writes to the copy. -/
def subMod (left : List Nat) (leftLength : Nat) (right : List Nat) (rightLength : Nat)
    (modulus : List Nat) (k : Nat) : Res Nat := do
  let leftLength := if leftLength > k then k else leftLength
  let rightLength := if rightLength > k then k else rightLength
  let r ← slice right 0 rightLength
  let left ← subtractSelf left r leftLength 0
  let leftLength ← actualLength left leftLength
  subModLoop modulus (val left + 1) left leftLength

/-- FastReducer.cpp:17-24 `Reduce(uint_array value, int length)`: only a length is returned. -/
def reduce (fr : FastReducer) (value : List Nat) (length : Nat) : Res Nat :=
  if length < fr.modulus.length then .ok length
  else do
    let m := fr.modulus.length
    let (q1, l1) ← divMul value length fr.mu fr.muLength (m * 2 + 2) (m - 1)
    let (q2, l2) ← divMul q1 l1 fr.modulus m (m * 2 + 1) (m + 1)
    subMod value length q2 l2 fr.modulus (m + 1)

end FastReducer

/-- BitsBuffer.cpp:36-38 `Reduce(FastReducer&)`: `_length` changes, `_bits` does not. -/
def BitsBuffer.reduceFast (self : BitsBuffer) (fr : FastReducer) : Res BitsBuffer := do
  let n ← fr.reduce self.bits self.length
  .ok ⟨self.bits, n⟩

/-- PowMod.cpp:28-49 `pow_bound`. -/
def powBound (power valueLength resultLength : Nat) : Res Nat :=
  if _h : power = 0 then .ok resultLength
  else do
    let resultLength ← (if power % 2 = 1 then
        if valueLength < 2147483647 - resultLength then .ok (resultLength + valueLength)
        else .throw .overflowError
      else .ok resultLength)
    let valueLength ← (if power ≠ 1 then
        if valueLength < 2147483647 - valueLength then .ok (valueLength + valueLength)
        else .throw .overflowError
      else .ok valueLength)
    powBound (power / 2) valueLength resultLength
termination_by power

/-- PowMod.cpp:51-59 (`red` does nothing), 162-175 (`red` is `Reduce(modulus)`) and 229-242
(`red` is `Reduce(reducer)`): square-and-multiply over one 32-bit exponent; the returned buffer is
`result`. -/
def powLoop (red : BitsBuffer → Res BitsBuffer) (power : Nat) (value result temp : BitsBuffer) :
    Res BitsBuffer :=
  if _h : power = 0 then .ok result
  else do
    let (result, temp) ← (if power % 2 = 1 then do
        let (r, t) ← result.multiplySelf value temp
        let r ← red r
        .ok (r, t)
      else .ok (result, temp))
    let (value, temp) ← (if power ≠ 1 then do
        let (v, t) ← value.squareSelf temp
        let v ← red v
        .ok (v, t)
      else .ok (value, temp))
    powLoop red (power / 2) value result temp
termination_by power

/-- PowMod.cpp:149-157, 216-224: `n` bits of one exponent word. -/
def powBits (red : BitsBuffer → Res BitsBuffer) :
    Nat → Nat → BitsBuffer × BitsBuffer × BitsBuffer → Res (BitsBuffer × BitsBuffer × BitsBuffer)
  | 0, _, st => .ok st
  | n + 1, p, (value, result, temp) => do
    let (result, temp) ← (if p % 2 = 1 then do
        let (r, t) ← result.multiplySelf value temp
        let r ← red r
        .ok (r, t)
      else .ok (result, temp))
    let (value, temp) ← value.squareSelf temp
    let value ← red value
    powBits red n (p / 2) (value, result, temp)

/-- PowMod.cpp:147-158, 215-225: all 32 bits of each of the given exponent words. -/
def powWords (red : BitsBuffer → Res BitsBuffer) :
    List Nat → BitsBuffer × BitsBuffer × BitsBuffer → Res (BitsBuffer × BitsBuffer × BitsBuffer)
  | [], st => .ok st
  | p :: ps, st => do
    let st ← powBits red 32 p st
    powWords red ps st

/-- PowMod.cpp:6-26 `pow(uint32_t, uint32_t)`, `pow(const uint_array&, uint32_t)` and `pow_core`;
the base is a list of words (`[value]` for the first overload). -/
def powCalc (mk : Nat → Res BitsBuffer) (valueLength power : Nat) : Res (List Nat) := do
  let size ← powBound power valueLength 1
  let v ← mk size
  let temp ← BitsBuffer.ofWord size 0
  let result ← BitsBuffer.ofWord size 1
  let r ← powLoop (fun b => .ok b) power v result temp
  .ok r.bits

/-- BigInteger.cpp:1543-1569 `pow`. -/
def BigInt.pow (a : BigInt) (exponent : Int) : Res BigInt :=
  if exponent < 0 then .throw .outOfRange
  else do
    assertValid a
    if exponent = 0 then .ok oneInt
    else if exponent = 1 then .ok a
    else if a.bits = [] ∧ a.sign = 1 then .ok a
    else if a.bits = [] ∧ a.sign = -1 then .ok (if exponent % 2 ≠ 0 then a else oneInt)
    else if a.bits = [] ∧ a.sign = 0 then .ok a
    else do
      let bits ← (if a.bits = [] then do
          let s ← cabs a.sign
          powCalc (fun size => BitsBuffer.ofWord size s) 1 exponent.toNat
        else do
          let _ ← sizeInt a.bits.length
          powCalc (fun size => BitsBuffer.ofWords size a.bits) a.bits.length exponent.toNat)
      ofMagnitude bits (a.sign < 0 ∧ exponent % 2 ≠ 0)

/-- PowMod.cpp:67-84 `pow_core(uint32_t, uint32_t, uint64_t, uint64_t)`. -/
def powModWord (power modulus value result : Nat) : Res Nat :=
  if _h : power = 0 then
    if modulus = 0 then .throw .divideByZero else .ok (u32 (result % modulus))
  else do
    let result ← (if power % 2 = 1 then
        if modulus = 0 then .throw .divideByZero else .ok (u64 (result * value) % modulus)
      else .ok result)
    let value ← (if power ≠ 1 then
        if modulus = 0 then .throw .divideByZero else .ok (u64 (value * value) % modulus)
      else .ok value)
    powModWord (power / 2) modulus value result
termination_by power

/-- PowMod.cpp:94-99: `n` bits of one exponent word; `% modulus` is unchecked. -/
def powModBits (modulus : Nat) : Nat → Nat → Nat × Nat → Res (Nat × Nat)
  | 0, _, st => .ok st
  | n + 1, p, (value, result) => do
    let result ← (if p % 2 = 1 then
        if modulus = 0 then .ub .divByZero else .ok (u64 (result * value) % modulus)
      else .ok result)
    let value ← (if modulus = 0 then .ub .divByZero else .ok (u64 (value * value) % modulus))
    powModBits modulus n (p / 2) (value, result)

/-- PowMod.cpp:91-102 `pow_core(const uint_array&, uint32_t, uint64_t, uint64_t)`: all words but
the last bit by bit, then the last one with the loop above. -/
def powModWords (modulus : Nat) : List Nat → Nat × Nat → Res Nat
  | [], _ => .ub .outOfBounds
  | [p], (value, result) => powModWord p modulus value result
  | p :: ps, st => do
    let st ← powModBits modulus 32 p st
    powModWords modulus ps st

/-- include/BigIntegerCalculator.h:116 `ReducerThreshold`. -/
def ReducerThreshold : Nat := 32

/-- PowMod.cpp:115-128 `pow_core(uint32_t, const uint_array&, BitsBuffer&)`. -/
def powCoreMod (power : Nat) (modulus : List Nat) (value : BitsBuffer) : Res (List Nat) := do
  let size := value.bits.length
  let temp ← BitsBuffer.ofWord size 0
  let result ← BitsBuffer.ofWord size 1
  if modulus.length < ReducerThreshold then do
    let r ← powLoop (fun b => b.reduce modulus) power value result temp
    .ok r.bits
  else do
    let fr ← FastReducer.make modulus
    let r ← powLoop (fun b => b.reduceFast fr) power value result temp
    .ok r.bits

/-- PowMod.cpp:197-210 `pow_core(const uint_array&, const uint_array&, BitsBuffer&)` with 144-160
and 212-227.  The `FastReducer` version runs over every word of `power` (215) and then once more
over the last one (226). -/
def powCoreModWords (power modulus : List Nat) (value : BitsBuffer) : Res (List Nat) := do
  let size := value.bits.length
  let temp ← BitsBuffer.ofWord size 0
  let result ← BitsBuffer.ofWord size 1
  let last ← idx power (power.length - 1)
  if modulus.length < ReducerThreshold then do
    let red := fun b : BitsBuffer => b.reduce modulus
    let (value, result, temp) ← powWords red power.dropLast (value, result, temp)
    let r ← powLoop red last value result temp
    .ok r.bits
  else do
    let fr ← FastReducer.make modulus
    let red := fun b : BitsBuffer => b.reduceFast fr
    let (value, result, temp) ← powWords red power (value, result, temp)
    let r ← powLoop red last value result temp
    .ok r.bits

/-- PowMod.cpp:130-142, 183-195: the buffer for a multi-word base. -/
def modPowBase (value modulus : List Nat) : Res BitsBuffer := do
  let size ← sizeInt (modulus.length + modulus.length)
  if value.length > modulus.length then do
    let tmp ← remainderVec value modulus
    BitsBuffer.ofWords size tmp
  else BitsBuffer.ofWords size value

/-- BigInteger.cpp:1572-1615 `mod_pow`, with the overloads of `BigIntegerCalculator::pow`
(PowMod.cpp:86-89, 104-113, 130-142, 177-195, 244-250).  Line 1598: `-1 * bits` with
`uint32_t bits` is unsigned arithmetic. -/
def BigInt.modPow (a e m : BigInt) : Res BigInt :=
  if e.sign < 0 then .throw .outOfRange
  else do
    assertValid a
    assertValid e
    assertValid m
    let even ← e.isEven
    let negate := decide (a.sign < 0) && !even
    if m.bits = [] then do
      let ms ← cabs m.sign
      let v ← (if a.bits = [] then cabs a.sign else remainderWord a.bits ms)
      let bits ← (if e.bits = [] then do
          let p ← cabs e.sign
          powModWord p ms v 1
        else powModWords ms e.bits (v, 1))
      ofUInt32 (if negate then u32i (-1 * (bits : Int)) else bits)
    else do
      let v ← (if a.bits = [] then do
          let s ← cabs a.sign
          let size ← sizeInt (m.bits.length + m.bits.length)
          BitsBuffer.ofWord size s
        else modPowBase a.bits m.bits)
      let bits ← (if e.bits = [] then do
          let p ← cabs e.sign
          powCoreMod p m.bits v
        else powCoreModWords e.bits m.bits v)
      ofMagnitude bits negate

end BigIntegerCpp
