import Verif.Model.DivRem
import Verif.Model.Core
/-
The arithmetic routines again, with what they cost: how many steps they take, how deeply their calls
nest and how much temporary storage they hold at the same time.  Everything else is as in
Model/AddSub.lean, Model/SquMul.lean and Model/DivRem.lean; that the outcomes are the same is proved
in Lemmas/Cost.lean (`…_res`).

A step is one iteration of a loop, or one word of an array that is filled or copied.
-/
namespace BigIntegerCpp

/-- Outcome and cost of a call.  No counterpart in the source. -/
structure Counted (α : Type) where
  res : Res α
  /-- loop iterations and words filled or copied -/
  steps : Nat
  /-- nesting of calls of the recursive routines -/
  depth : Nat
  /-- words of temporary arrays alive at the same time, at worst -/
  words : Nat

namespace Counted

def bind {α β : Type} (r : Counted α) (f : α → Counted β) : Counted β :=
  match r.res with
  | .ok a => ⟨(f a).res, r.steps + (f a).steps, max r.depth (f a).depth, max r.words (f a).words⟩
  | .throw e => ⟨.throw e, r.steps, r.depth, r.words⟩
  | .abort => ⟨.abort, r.steps, r.depth, r.words⟩
  | .ub u => ⟨.ub u, r.steps, r.depth, r.words⟩
  | .diverge => ⟨.diverge, r.steps, r.depth, r.words⟩

instance : Monad Counted where
  pure a := ⟨.ok a, 0, 0, 0⟩
  bind := bind

/-- A part without loops. -/
def lift {α : Type} (r : Res α) : Counted α := ⟨r, 0, 0, 0⟩
/-- `n` steps. -/
def tick (n : Nat) : Counted Unit := ⟨.ok (), n, 0, 0⟩
/-- A call of a recursive routine. -/
def call {α : Type} (r : Counted α) : Counted α := ⟨r.res, r.steps, r.depth + 1, r.words⟩
/-- A block that allocates and fills `w` words, released at its end. -/
def scope {α : Type} (w : Nat) (r : Counted α) : Counted α := ⟨r.res, r.steps + w, r.depth, r.words + w⟩
/-- A block during which `w` words, filled elsewhere, are alive. -/
def hold {α : Type} (w : Nat) (r : Counted α) : Counted α := ⟨r.res, r.steps, r.depth, r.words + w⟩

end Counted
open Counted

namespace Cost
variable [Cfg]

/-- AddSub.cpp:50-62, one step per word. -/
def addLoop : List Nat → List Nat → Nat → Counted (List Nat)
  | [], [], c => pure [u32 c]
  | [], _ :: _, _ => lift (.ub .outOfBounds)
  | x :: xs, [], c => do
    tick 1
    let digit := u64 (x + c)
    let r ← addLoop xs [] (digit / 4294967296)
    pure (u32 digit :: r)
  | x :: xs, y :: ys, c => do
    tick 1
    let digit := u64 (u64 (x + c) + y)
    let r ← addLoop xs ys (digit / 4294967296)
    pure (u32 digit :: r)

/-- AddSub.cpp:40-63 `add(const uint32_t*, …)`. -/
def addPtr (lhs rhs : List Nat) (bitsLength : Nat) : Counted (List Nat) := do
  lift (cassert (lhs.length ≥ rhs.length))
  lift (cassert (bitsLength = lhs.length + 1))
  addLoop lhs rhs 0

/-- AddSub.cpp:82-86 and SquMul.cpp:338-342. -/
def carrySelf : List Nat → Int → Counted (List Nat × Int)
  | [], c => pure ([], c)
  | x :: xs, c =>
    if c = 0 then pure (x :: xs, 0) else do
      tick 1
      let digit ← lift (long ((x : Int) + c))
      let (r, c') ← carrySelf xs (digit / 4294967296)
      pure (u32i digit :: r, c')

/-- AddSub.cpp:77-86. -/
def addSelfLoop : List Nat → List Nat → Int → Counted (List Nat × Int)
  | xs, [], c => carrySelf xs c
  | [], _ :: _, _ => lift (.ub .outOfBounds)
  | x :: xs, y :: ys, c => do
    tick 1
    let digit ← lift (long ((x : Int) + c + y))
    let (r, c') ← addSelfLoop xs ys (digit / 4294967296)
    pure (u32i digit :: r, c')

/-- AddSub.cpp:65-89 `add_self`. -/
def addSelf (lhs rhs : List Nat) : Counted (List Nat) := do
  lift (cassert (lhs.length ≥ rhs.length))
  let (r, c) ← addSelfLoop lhs rhs 0
  lift (cassert (c = 0))
  pure r

/-- SquMul.cpp:325-342, the loops of `subtract_core`. -/
def subtractCoreLoop : (core lhs rhs : List Nat) → Int → Counted (List Nat × Int)
  | core, [], [], c => carrySelf core c
  | _, [], _ :: _, _ => lift (.ub .outOfBounds)
  | [], _ :: _, _, _ => lift (.ub .outOfBounds)
  | x :: xs, l :: ls, [], c => do
    tick 1
    let digit ← lift (long ((x : Int) + c - l))
    let (r, c') ← subtractCoreLoop xs ls [] (digit / 4294967296)
    pure (u32i digit :: r, c')
  | x :: xs, l :: ls, y :: ys, c => do
    tick 1
    let digit ← lift (long ((x : Int) + c - l - y))
    let (r, c') ← subtractCoreLoop xs ls ys (digit / 4294967296)
    pure (u32i digit :: r, c')

/-- SquMul.cpp:307-343 `subtract_core`. -/
def subtractCore (lhs rhs core : List Nat) : Counted (List Nat) := do
  lift (cassert (lhs.length ≥ rhs.length))
  lift (cassert (core.length ≥ lhs.length))
  let (r, _) ← subtractCoreLoop core lhs rhs 0
  pure r

/-- SquMul.cpp:196-202, one step per word of `left`. -/
def mulRow : (bits left : List Nat) → (r c : Nat) → Counted (List Nat)
  | _ :: bs, [], _, c => pure (u32 c :: bs)
  | [], _, _, _ => lift (.ub .outOfBounds)
  | b :: bs, l :: ls, r, c => do
    tick 1
    let digits := u64 (u64 (b + c) + u64 (l * r))
    let t ← mulRow bs ls r (digits / 4294967296)
    pure (u32 digits :: t)

/-- SquMul.cpp:195-203, one more step per row. -/
def mulSchool (left : List Nat) : (right bits : List Nat) → Counted (List Nat)
  | [], bits => pure bits
  | r :: rs, bits => do
    tick 1
    match ← mulRow bits left r 0 with
    | [] => lift (.ub .outOfBounds)
    | b :: bs => do
      let t ← mulSchool left rs bs
      pure (b :: t)

/-- SquMul.cpp:171-305 `multiply(uint32_t*, int, uint32_t*, int, uint32_t*, int)`.  The three
arrays of lines 253-255 (280-282) are filled with zeros and live until the end of the block. -/
def mulCore (left right bits : List Nat) (rightLength : Nat) : Counted (List Nat) := call do
  lift (cassert (left.length ≥ rightLength))
  lift (cassert (bits.length = left.length + rightLength))
  if _h : rightLength < MultiplyThreshold then mulSchool left right bits
  else do
    let n := rightLength / 2
    let n2 := n * 2
    let leftLow ← lift (slice left 0 n)
    let leftHigh ← lift (slice left n (left.length - n))
    let rightLow ← lift (slice right 0 n)
    let rightHigh ← lift (slice right n (rightLength - n))
    let bitsLow ← lift (slice bits 0 n2)
    let bitsHigh ← lift (slice bits n2 (bits.length - n2))
    let bitsLow ← mulCore leftLow rightLow bitsLow n
    let bitsHigh ← mulCore leftHigh rightHigh bitsHigh (rightLength - n)
    scope ((leftHigh.length + 1) + (rightLength - n + 1) + ((leftHigh.length + 1) + (rightLength - n + 1))) do
      let leftFold ← addPtr leftHigh leftLow (leftHigh.length + 1)
      let rightFold ← addPtr rightHigh rightLow (rightLength - n + 1)
      let core ← mulCore leftFold rightFold
        (List.replicate (leftFold.length + (rightLength - n + 1)) 0) (rightLength - n + 1)
      let core ← subtractCore bitsHigh bitsLow core
      let all := bitsLow ++ bitsHigh
      let upper ← lift (slice all n (all.length - n))
      let upper ← addSelf upper core
      pure (all.take n ++ upper)
termination_by rightLength
decreasing_by all_goals (simp only [MultiplyThreshold] at _h; omega)

/-- SquMul.cpp:156-169 `multiply(uint_array, uint_array)`: both arguments are copied, the result
array is filled with zeros.  The result array outlives the call and is counted in the caller. -/
def multiplyVec (lhs rhs : List Nat) : Counted (List Nat) :=
  scope (lhs.length + rhs.length) do
  lift (cassert (lhs ≠ []))
  lift (cassert (rhs ≠ []))
  lift (cassert (lhs.length ≥ rhs.length))
  let _ ← lift (sizeInt (lhs.length + rhs.length))
  tick (lhs.length + rhs.length)
  mulCore lhs rhs (List.replicate (lhs.length + rhs.length) 0) rhs.length

/-- SquMul.cpp:43-52. -/
def sqRow : (bits pre : List Nat) → (v c : Nat) → Counted (List Nat)
  | _ :: _ :: bs, [], v, c =>
    let digits := u64 (u64 (v * v) + c)
    pure (u32 digits :: u32 (digits / 4294967296) :: bs)
  | b :: bs, p :: ps, v, c => do
    tick 1
    let digit1 := u64 (b + c)
    let digit2 := u64 (p * v)
    let t ← sqRow bs ps v (u64 (digit2 + digit1 / 2) / 2147483648)
    pure (u32 (u64 (digit1 + u64 (digit2 * 2))) :: t)
  | _, _, _, _ => lift (.ub .outOfBounds)

/-- SquMul.cpp:42-53. -/
def sqSchool : (pre vs bits : List Nat) → Counted (List Nat)
  | _, [], bits => pure bits
  | pre, v :: vs, bits => do
    tick 1
    match ← sqRow bits pre v 0 with
    | [] => lift (.ub .outOfBounds)
    | b :: bs => do
      let t ← sqSchool (pre ++ [v]) vs bs
      pure (b :: t)

/-- SquMul.cpp:16-131 `square(uint32_t*, int, uint32_t*, int)`. -/
def sqCore (value bits : List Nat) (valueLength : Nat) : Counted (List Nat) := call do
  lift (cassert (bits.length = valueLength + valueLength))
  if _h : valueLength < SquareThreshold then sqSchool [] value bits
  else do
    let n := valueLength / 2
    let n2 := n * 2
    let valueLow ← lift (slice value 0 n)
    let valueHigh ← lift (slice value n (valueLength - n))
    let bitsLow ← lift (slice bits 0 n2)
    let bitsHigh ← lift (slice bits n2 (bits.length - n2))
    let bitsLow ← sqCore valueLow bitsLow n
    let bitsHigh ← sqCore valueHigh bitsHigh (valueLength - n)
    scope ((valueLength - n + 1) + ((valueLength - n + 1) + (valueLength - n + 1))) do
      let fold ← addPtr valueHigh valueLow (valueLength - n + 1)
      let core ← sqCore fold (List.replicate ((valueLength - n + 1) + (valueLength - n + 1)) 0)
        (valueLength - n + 1)
      let core ← subtractCore bitsHigh bitsLow core
      let all := bitsLow ++ bitsHigh
      let upper ← lift (slice all n (all.length - n))
      let upper ← addSelf upper core
      pure (all.take n ++ upper)
termination_by valueLength
decreasing_by all_goals (simp only [SquareThreshold] at _h; omega)

/-- SquMul.cpp:4-14 `square(uint_array&)`. -/
def squareVec (value : List Nat) : Counted (List Nat) := do
  lift (cassert (value ≠ []))
  let _ ← lift (sizeInt (value.length * 2))
  tick (value.length * 2)
  sqCore value (List.replicate (value.length * 2) 0) value.length

/-- SquMul.cpp:133-154 `multiply(uint_array, uint32_t)`: the argument is copied, the result filled
with zeros, one iteration per word. -/
def multiplyWord (lhs : List Nat) (rhs : Nat) : Counted (List Nat) := scope lhs.length do
  tick (lhs.length + 1 + lhs.length)
  lift (BigIntegerCpp.multiplyWord lhs rhs)

/-- BigInteger.cpp:330-355 `BigInteger(uint_array, bool)`: the argument is copied; the two trimming
loops are charged as if they ran to the end. -/
def ofMagnitude (value : List Nat) (negative : Bool) : Counted BigInt := scope value.length do
  tick (2 * value.length)
  lift (BigIntegerCpp.ofMagnitude value negative)

/-- BigInteger.cpp:487-531 `operator*=`: the left operand is copied (488); comparing the operands
(516) is charged as if it ran to the end; the array with the product lives until the end. -/
def mul (a b : BigInt) : Counted BigInt := scope a.bits.length do
  lift (assertValid a)
  lift (assertValid b)
  if a.bits = [] ∧ b.bits = [] then do
    let p ← lift (long (a.sign * b.sign))
    lift (ofInt64 p)
  else if a.bits = [] then do
    let s ← lift (cabs a.sign)
    hold (b.bits.length + 1) do
      let bits ← multiplyWord b.bits s
      ofMagnitude bits (BigInt.signXor a b)
  else if b.bits = [] then do
    let s ← lift (cabs b.sign)
    hold (a.bits.length + 1) do
      let bits ← multiplyWord a.bits s
      ofMagnitude bits (BigInt.signXor a b)
  else do
    tick (min a.bits.length b.bits.length)
    hold (a.bits.length + b.bits.length) do
      if a.bits = b.bits then do
        let bits ← squareVec a.bits
        ofMagnitude bits (BigInt.signXor a b)
      else if a.bits.length < b.bits.length then do
        let bits ← multiplyVec b.bits a.bits
        ofMagnitude bits (BigInt.signXor a b)
      else do
        let bits ← multiplyVec a.bits b.bits
        ofMagnitude bits (BigInt.signXor a b)

/-! ### Division -/

/-- DivRem.cpp:16-25, 38-46, one step per word. -/
def divWordLoop : List Nat → Nat → Counted (List Nat × Nat)
  | [], _ => pure ([], 0)
  | x :: xs, y => do
    let (q, carry) ← divWordLoop xs y
    tick 1
    let value := u64 (carry <<< 32) ||| x
    if y = 0 then lift (.throw .divideByZero) else do
      let digit := value / y
      pure (u32 digit :: q, u64sub value (u64 (digit * y)))

/-- DivRem.cpp:30-49 `divide(uint_array&, uint32_t)`: the quotient is filled with zeros; it is
counted as storage in the caller. -/
def divideWord (lhs : List Nat) (rhs : Nat) : Counted (List Nat) := do
  lift (cassert (lhs ≠ []))
  let _ ← lift (sizeInt lhs.length)
  tick lhs.length
  let (q, _) ← divWordLoop lhs rhs
  pure q

/-- DivRem.cpp:57-63, one step per word. -/
def remWordLoop : List Nat → Nat → Counted Nat
  | [], _ => pure 0
  | x :: xs, y => do
    let carry ← remWordLoop xs y
    tick 1
    let value := u64 (carry <<< 32) ||| x
    if y = 0 then lift (.throw .divideByZero) else pure (value % y)

/-- DivRem.cpp:51-66 `remainder(const uint_array&, const unsigned int)`. -/
def remainderWord (lhs : List Nat) (rhs : Nat) : Counted Nat := do
  lift (cassert (lhs ≠ []))
  let _ ← lift (sizeInt lhs.length)
  let c ← remWordLoop lhs rhs
  pure (u32 c)

/-- DivRem.cpp:203-219 `add_divisor`. -/
def addDivisor : (lhs rhs : List Nat) → Nat → Counted (List Nat × Nat)
  | lhs, [], c => pure (lhs, u32 c)
  | [], _ :: _, _ => lift (.ub .outOfBounds)
  | x :: xs, y :: ys, c => do
    tick 1
    let digit := u64 (u64 (x + c) + y)
    let (r, c') ← addDivisor xs ys (digit / 4294967296)
    pure (u32 digit :: r, c')

/-- DivRem.cpp:221-243 `subtract_divisor`. -/
def subtractDivisor : (lhs rhs : List Nat) → (q c : Nat) → Counted (List Nat × Nat)
  | lhs, [], _, c => pure (lhs, u32 c)
  | [], _ :: _, _, _ => lift (.ub .outOfBounds)
  | x :: xs, y :: ys, q, c => do
    tick 1
    let c1 := u64 (c + u64 (y * q))
    let digit := u32 c1
    let c2 := c1 / 4294967296
    let c3 := if x < digit then u64 (c2 + 1) else c2
    let (r, c') ← subtractDivisor xs ys q c3
    pure (u32sub x digit :: r, c')

/-- DivRem.cpp:177-178, one step per evaluation of the test. -/
def fixGuess (valHi valLo divHi divLo : Nat) : Nat → Counted Nat
  | 0 => do
    tick 1
    pure 0
  | d + 1 => do
    tick 1
    if divideGuessTooBig (d + 1) valHi valLo divHi divLo then fixGuess valHi valLo divHi divLo d else pure (d + 1)

/-- DivRem.cpp:154-178. -/
def divideGuess (lhs rhs : List Nat) (shift divHi divLo n : Nat) : Counted (Nat × Nat) := do
  let backShift := 32 - shift
  let i := n + rhs.length
  let t ← lift (if i < lhs.length then idx lhs i else .ok 0)
  let v1 ← lift (idx lhs (i - 1))
  let valHi := u64 (t <<< 32) ||| v1
  let valLo ← lift (if i > 1 then idx lhs (i - 2) else .ok 0)
  let (valHi, valLo) ← lift (if shift > 0 then do
      let valNx ← (if i > 2 then idx lhs (i - 3) else .ok 0)
      .ok (u64 (valHi <<< shift) ||| (valLo >>> backShift),
           u32 (valLo <<< shift) ||| (valNx >>> backShift))
    else .ok (valHi, valLo))
  if divHi = 0 then lift (.throw .divideByZero) else do
  let digit := valHi / divHi
  let digit := if digit > 0xFFFFFFFF then 0xFFFFFFFF else digit
  let digit ← fixGuess valHi valLo divHi divLo digit
  pure (t, digit)

/-- DivRem.cpp:180-199. -/
def divideApply (lhs rhs : List Nat) (n t digit : Nat) : Counted (List Nat × Nat) := do
  let i := n + rhs.length
  let (lhs, digit) ← (if digit > 0 then do
      let mem ← lift (slice lhs n (lhs.length - n))
      lift (cassert (lhs.length - n ≥ rhs.length))
      let (mem, carry) ← subtractDivisor mem rhs digit 0
      if carry ≠ t then do
        lift (cassert (carry = u32 (t + 1)))
        let (mem, carry) ← addDivisor mem rhs 0
        lift (cassert (carry = 1))
        pure (lhs.take n ++ mem, digit - 1)
      else pure (lhs.take n ++ mem, digit)
    else pure (lhs, digit))
  let lhs ← lift (if i < lhs.length then put lhs i 0 else .ok lhs)
  pure (lhs, digit)

/-- DivRem.cpp:154-199, one more step per iteration. -/
def divideStep (lhs rhs : List Nat) (shift divHi divLo n : Nat) : Counted (List Nat × Nat) := do
  tick 1
  let (t, digit) ← divideGuess lhs rhs shift divHi divLo n
  divideApply lhs rhs n t digit

/-- DivRem.cpp:153-200. -/
def divideLoop (rhs : List Nat) (shift divHi divLo : Nat) : Nat → (lhs bits : List Nat) → Counted (List Nat × List Nat)
  | 0, lhs, bits => pure (lhs, bits)
  | k + 1, lhs, bits => do
    let (lhs, digit) ← divideStep lhs rhs shift divHi divLo k
    let bits ← lift (if bits.length ≠ 0 then put bits k (u32 digit) else .ok bits)
    divideLoop rhs shift divHi divLo k lhs bits

/-- DivRem.cpp:124-201 `divide(uint32_t*, …)`. -/
def divideCore (lhs rhs bits : List Nat) : Counted (List Nat × List Nat) := do
  lift (cassert (lhs.length ≥ 1))
  lift (cassert (rhs.length ≥ 1))
  lift (cassert (lhs.length ≥ rhs.length))
  lift (cassert (bits.length = lhs.length - rhs.length + 1 ∨ bits.length = 0))
  let divHi ← lift (idx rhs (rhs.length - 1))
  let divLo ← lift (if rhs.length > 1 then idx rhs (rhs.length - 2) else .ok 0)
  let shift := leadingZeros divHi
  let backShift := 32 - shift
  let (divHi, divLo) ← lift (if shift > 0 then do
      if shift ≥ 32 then .ub .badShift else do
      let divNx ← (if rhs.length > 2 then idx rhs (rhs.length - 3) else .ok 0)
      .ok (u32 (divHi <<< shift) ||| (divLo >>> backShift),
           u32 (divLo <<< shift) ||| (divNx >>> backShift))
    else .ok (divHi, divLo))
  divideLoop rhs shift divHi divLo (lhs.length + 1 - rhs.length) lhs bits

/-- DivRem.cpp:88-105 `divide(const uint_array&, const uint_array&)`: both operands are copied, the
quotient is filled with zeros. -/
def divideVec (lhs rhs : List Nat) : Counted (List Nat) := scope (lhs.length + rhs.length) do
  lift (cassert (lhs ≠ []))
  lift (cassert (rhs ≠ []))
  lift (cassert (lhs.length ≥ rhs.length))
  let _ ← lift (sizeInt lhs.length)
  tick (lhs.length - rhs.length + 1)
  let (_, q) ← divideCore lhs rhs (List.replicate (lhs.length - rhs.length + 1) 0)
  pure q

/-- DivRem.cpp:107-122 `remainder(const uint_array&, const uint_array&)`: the copy of the left
operand becomes the result. -/
def remainderVec (lhs rhs : List Nat) : Counted (List Nat) := do
  lift (cassert (lhs ≠ []))
  lift (cassert (rhs ≠ []))
  lift (cassert (lhs.length ≥ rhs.length))
  let _ ← lift (sizeInt lhs.length)
  tick lhs.length
  let (r, _) ← divideCore lhs rhs []
  pure r

/-- BigInteger.cpp:677-717 `operator/=`: the dividend is copied. -/
def div (a b : BigInt) : Counted BigInt := scope a.bits.length do
  lift (assertValid a)
  lift (assertValid b)
  if a.bits = [] ∧ b.bits = [] then
    if b.sign = 0 then lift (.throw .divideByZero)
    else do
      let q ← lift (int (a.sign.tdiv b.sign))
      lift (ofInt64 q)
  else if a.bits = [] then pure zeroInt
  else if b.bits = [] then do
    let s ← lift (cabs b.sign)
    hold a.bits.length do
      let bits ← divideWord a.bits s
      ofMagnitude bits (BigInt.signXor a b)
  else if a.bits.length < b.bits.length then pure zeroInt
  else hold (a.bits.length - b.bits.length + 1) do
    let bits ← divideVec a.bits b.bits
    ofMagnitude bits (BigInt.signXor a b)

/-- BigInteger.cpp:542-580 `operator%=`: the divisor is copied. -/
def rem (a b : BigInt) : Counted BigInt := scope b.bits.length do
  lift (assertValid a)
  lift (assertValid b)
  if a.bits = [] ∧ b.bits = [] then
    if b.sign = 0 then lift (.throw .divideByZero)
    else do
      let _ ← lift (int (a.sign.tdiv b.sign))
      lift (ofInt32 (a.sign.tmod b.sign))
  else if a.bits = [] then pure a
  else if b.bits = [] then do
    let s ← lift (cabs b.sign)
    let r ← remainderWord a.bits s
    lift (ofInt64 (if a.sign < 0 then -1 * (r : Int) else r))
  else if a.bits.length < b.bits.length then pure a
  else hold a.bits.length do
    let bits ← remainderVec a.bits b.bits
    ofMagnitude bits (a.sign < 0)

/-! ### Addition and subtraction -/

/-- AddSub.cpp:18-22, 106-110, 150-154. -/
def carryLoop : List Nat → Int → Counted (List Nat × Int)
  | [], c => pure ([], c)
  | x :: xs, c => do
    tick 1
    let digit ← lift (long ((x : Int) + c))
    let (r, c') ← carryLoop xs (digit / 4294967296)
    pure (u32i digit :: r, c')

/-- AddSub.cpp:4-26 `add(const uint_array&, uint32_t)`: the result is filled with zeros. -/
def addWord (lhs : List Nat) (rhs : Nat) : Counted (List Nat) := do
  lift (cassert (lhs ≠ []))
  tick (lhs.length + 1)
  match lhs with
  | [] => lift (.ub .outOfBounds)
  | x :: xs => do
    let digit ← lift (long ((x : Int) + rhs))
    let (r, c) ← carryLoop xs (digit / 4294967296)
    pure (u32i digit :: r ++ [u32i c])

/-- AddSub.cpp:28-38 `add(const uint_array&, const uint_array&)`. -/
def addVec (lhs rhs : List Nat) : Counted (List Nat) := do
  lift (cassert (lhs ≠ []))
  lift (cassert (rhs ≠ []))
  lift (cassert (lhs.length ≥ rhs.length))
  let _ ← lift (sizeInt (lhs.length + 1))
  tick (lhs.length + 1)
  addPtr lhs rhs (lhs.length + 1)

/-- AddSub.cpp:91-113 `subtract(const uint_array&, uint32_t)`. -/
def subtractWord (lhs : List Nat) (rhs : Nat) : Counted (List Nat) := do
  lift (cassert (lhs ≠ []))
  lift (cassert (lhs.headD 0 ≥ rhs ∨ lhs.length ≥ 2))
  tick lhs.length
  match lhs with
  | [] => lift (.ub .outOfBounds)
  | x :: xs => do
    let digit ← lift (long ((x : Int) - rhs))
    let (r, _) ← carryLoop xs (digit / 4294967296)
    pure (u32i digit :: r)

/-- AddSub.cpp:145-154. -/
def subtractLoop : List Nat → List Nat → Int → Counted (List Nat × Int)
  | xs, [], c => carryLoop xs c
  | [], _ :: _, _ => lift (.ub .outOfBounds)
  | x :: xs, y :: ys, c => do
    tick 1
    let digit ← lift (long ((x : Int) + c - y))
    let (r, c') ← subtractLoop xs ys (digit / 4294967296)
    pure (u32i digit :: r, c')

/-- AddSub.cpp:128-157 `subtract(const uint32_t*, …)`; the comparison in the assertion (131) is
charged as if it ran to the end, whether or not the assertions are compiled in. -/
def subtractPtr (lhs rhs : List Nat) (bitsLength : Nat) : Counted (List Nat) := do
  lift (cassert (lhs.length ≥ rhs.length))
  tick lhs.length
  lift (cassert (compareWords lhs rhs ≥ 0))
  lift (cassert (bitsLength = lhs.length))
  let (r, c) ← subtractLoop lhs rhs 0
  lift (cassert (c = 0))
  pure r

/-- AddSub.cpp:115-126 `subtract(const uint_array&, const uint_array&)`: the comparison in the
assertion, the result filled with zeros. -/
def subtractVec (lhs rhs : List Nat) : Counted (List Nat) := do
  lift (cassert (lhs ≠ []))
  lift (cassert (rhs ≠ []))
  lift (cassert (lhs.length ≥ rhs.length))
  tick lhs.length
  lift (cassert (compareWords lhs rhs ≥ 0))
  let _ ← lift (sizeInt lhs.length)
  tick lhs.length
  subtractPtr lhs rhs lhs.length

/-- BigInteger.cpp:402-431 `add(lhs, lhsSign, rhs, rhsSign)`; the array with the sum lives until the
end. -/
def addSigned (lhs : List Nat) (lhsSign : Int) (rhs : List Nat) (rhsSign : Int) : Counted BigInt :=
  if lhs = [] ∧ rhs = [] then do
    let s ← lift (long (lhsSign + rhsSign))
    lift (ofInt64 s)
  else if lhs = [] then do
    let a ← lift (cabs lhsSign)
    hold (rhs.length + 1) do
      let bits ← addWord rhs a
      ofMagnitude bits (lhsSign < 0)
  else if rhs = [] then do
    let a ← lift (cabs rhsSign)
    hold (lhs.length + 1) do
      let bits ← addWord lhs a
      ofMagnitude bits (lhsSign < 0)
  else if lhs.length < rhs.length then hold (rhs.length + 1) do
    let bits ← addVec rhs lhs
    ofMagnitude bits (lhsSign < 0)
  else hold (lhs.length + 1) do
    let bits ← addVec lhs rhs
    ofMagnitude bits (lhsSign < 0)

/-- BigInteger.cpp:433-462 `subtract(lhs, lhsSign, rhs, rhsSign)`; the comparison (453) is charged as
if it ran to the end of the shorter array. -/
def subtractSigned (lhs : List Nat) (lhsSign : Int) (rhs : List Nat) (rhsSign : Int) : Counted BigInt :=
  if lhs = [] ∧ rhs = [] then do
    let s ← lift (long (lhsSign - rhsSign))
    lift (ofInt64 s)
  else if lhs = [] then do
    let a ← lift (cabs lhsSign)
    hold rhs.length do
      let bits ← subtractWord rhs a
      ofMagnitude bits (lhsSign ≥ 0)
  else if rhs = [] then do
    let a ← lift (cabs rhsSign)
    hold lhs.length do
      let bits ← subtractWord lhs a
      ofMagnitude bits (lhsSign < 0)
  else do
    tick (min lhs.length rhs.length)
    if compareWords lhs rhs < 0 then hold rhs.length do
      let bits ← subtractVec rhs lhs
      ofMagnitude bits (lhsSign ≥ 0)
    else hold lhs.length do
      let bits ← subtractVec lhs rhs
      ofMagnitude bits (lhsSign < 0)

/-- BigInteger.cpp:659-670 `operator+=`; nothing is copied here. -/
def add (a b : BigInt) : Counted BigInt := do
  lift (assertValid a)
  lift (assertValid b)
  if decide (a.sign < 0) ≠ decide (b.sign < 0) then do
    let s ← lift (int (-1 * b.sign))
    subtractSigned a.bits a.sign b.bits s
  else addSigned a.bits a.sign b.bits b.sign

/-- BigInteger.cpp:469-480 `operator-=`: the left operand is copied. -/
def sub (a b : BigInt) : Counted BigInt := scope a.bits.length do
  lift (assertValid a)
  lift (assertValid b)
  if decide (a.sign < 0) ≠ decide (b.sign < 0) then do
    let s ← lift (int (-1 * b.sign))
    addSigned a.bits a.sign b.bits s
  else subtractSigned a.bits a.sign b.bits b.sign

end Cost
end BigIntegerCpp
