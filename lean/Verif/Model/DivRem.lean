import Verif.Model.SquMul
/-
Model of src/BigIntegerCalculator/DivRem.cpp.
-/
namespace BigIntegerCpp
variable [Cfg]

/-- DivRem.cpp:16-25 / 38-46: division by one word, most significant word first; the remaining
argument is the little-endian list, so the recursion handles the higher words first. Returns the
quotient words and the final carry. -/
def divWordLoop : List Nat → Nat → Res (List Nat × Nat)
  | [], _ => .ok ([], 0)
  | x :: xs, y => do
    let (q, carry) ← divWordLoop xs y
    let value := u64 (carry <<< 32) ||| x
    if y = 0 then .throw .divideByZero else do
      let digit := value / y
      .ok (u32 digit :: q, u64sub value (u64 (digit * y)))

/-- DivRem.cpp:5-28 `divide(uint_array&, uint32_t, uint32_t&)`: quotient and remainder. -/
def divideWordRem (lhs : List Nat) (rhs : Nat) : Res (List Nat × Nat) := do
  cassert (lhs ≠ [])
  let _ ← sizeInt lhs.length
  let (q, c) ← divWordLoop lhs rhs
  .ok (q, u32 c)

/-- DivRem.cpp:30-49 `divide(uint_array&, uint32_t)`. -/
def divideWord (lhs : List Nat) (rhs : Nat) : Res (List Nat) := do
  cassert (lhs ≠ [])
  let _ ← sizeInt lhs.length
  let (q, _) ← divWordLoop lhs rhs
  .ok q

/-- DivRem.cpp:57-63: the loop of `remainder(const uint_array&, unsigned)`. -/
def remWordLoop : List Nat → Nat → Res Nat
  | [], _ => .ok 0
  | x :: xs, y => do
    let carry ← remWordLoop xs y
    let value := u64 (carry <<< 32) ||| x
    if y = 0 then .throw .divideByZero else .ok (value % y)

/-- DivRem.cpp:51-66 `remainder(const uint_array&, const unsigned int)`. -/
def remainderWord (lhs : List Nat) (rhs : Nat) : Res Nat := do
  cassert (lhs ≠ [])
  let _ ← sizeInt lhs.length
  let c ← remWordLoop lhs rhs
  .ok (u32 c)

/-- DivRem.cpp:203-219 `add_divisor`: new contents of `lhs` and the returned carry. -/
def addDivisor : (lhs rhs : List Nat) → Nat → Res (List Nat × Nat)
  | lhs, [], c => .ok (lhs, u32 c)
  | [], _ :: _, _ => .ub .outOfBounds
  | x :: xs, y :: ys, c => do
    let digit := u64 (u64 (x + c) + y)
    let (r, c') ← addDivisor xs ys (digit / 4294967296)
    .ok (u32 digit :: r, c')

/-- DivRem.cpp:221-243 `subtract_divisor`: new contents of `lhs` and the returned carry. -/
def subtractDivisor : (lhs rhs : List Nat) → (q c : Nat) → Res (List Nat × Nat)
  | lhs, [], _, c => .ok (lhs, u32 c)
  | [], _ :: _, _, _ => .ub .outOfBounds
  | x :: xs, y :: ys, q, c => do
    let c1 := u64 (c + u64 (y * q))
    let digit := u32 c1
    let c2 := c1 / 4294967296
    let c3 := if x < digit then u64 (c2 + 1) else c2
    let (r, c') ← subtractDivisor xs ys q c3
    .ok (u32sub x digit :: r, c')

/-- DivRem.cpp:245-271 `divide_guess_too_big`. -/
def divideGuessTooBig (q valHi valLo divHi divLo : Nat) : Bool :=
  let chkHi := u64 (divHi * q)
  let chkLo := u64 (divLo * q)
  let chkHi := u64 (chkHi + chkLo / 4294967296)
  let chkLo := chkLo &&& 0xFFFFFFFF
  if chkHi < valHi then false
  else if chkHi > valHi then true
  else if chkLo < valLo then false
  else if chkLo > valLo then true
  else false

/-- DivRem.cpp:177-178: `while (too_big(digit)) --digit;`.  At `digit = 0` the test is false
(`divideGuessTooBig_zero` in Lemmas/DivRem.lean), so the loop stops there. -/
def fixGuess (valHi valLo divHi divLo : Nat) : Nat → Nat
  | 0 => 0
  | d + 1 => if divideGuessTooBig (d + 1) valHi valLo divHi divLo
      then fixGuess valHi valLo divHi divLo d else d + 1

/-- DivRem.cpp:273-299 `leading_zeros`. -/
def leadingZeros (value : Nat) : Nat :=
  if value = 0 then 32 else
  let (count, value) := if value &&& 0xFFFF0000 = 0 then (16, u32 (value <<< 16)) else (0, value)
  let (count, value) := if value &&& 0xFF000000 = 0 then (count + 8, u32 (value <<< 8)) else (count, value)
  let (count, value) := if value &&& 0xF0000000 = 0 then (count + 4, u32 (value <<< 4)) else (count, value)
  let (count, value) := if value &&& 0xC0000000 = 0 then (count + 2, u32 (value <<< 2)) else (count, value)
  if value &&& 0x80000000 = 0 then count + 1 else count

/-- DivRem.cpp:154-178: first half of the body of the main loop for one value of
`n = i - rhsLength`: the word `t` above the window and the quotient digit guess. -/
def divideGuess (lhs rhs : List Nat) (shift divHi divLo n : Nat) : Res (Nat × Nat) := do
  let backShift := 32 - shift
  let i := n + rhs.length
  let t ← (if i < lhs.length then idx lhs i else .ok 0)
  let v1 ← idx lhs (i - 1)
  let valHi := u64 (t <<< 32) ||| v1
  let valLo ← (if i > 1 then idx lhs (i - 2) else .ok 0)
  let (valHi, valLo) ← (if shift > 0 then do
      let valNx ← (if i > 2 then idx lhs (i - 3) else .ok 0)
      .ok (u64 (valHi <<< shift) ||| (valLo >>> backShift),
           u32 (valLo <<< shift) ||| (valNx >>> backShift))
    else .ok (valHi, valLo))
  if divHi = 0 then .throw .divideByZero else do
  let digit := valHi / divHi
  let digit := if digit > 0xFFFFFFFF then 0xFFFFFFFF else digit
  .ok (t, fixGuess valHi valLo divHi divLo digit)

/-- DivRem.cpp:180-199: second half: subtract `digit` times the divisor, correct the guess if it
was one too large, clear the word above the window.  Returns the new `lhs` and the digit. -/
def divideApply (lhs rhs : List Nat) (n t digit : Nat) : Res (List Nat × Nat) := do
  let i := n + rhs.length
  let (lhs, digit) ← (if digit > 0 then do
      let mem ← slice lhs n (lhs.length - n)
      cassert (lhs.length - n ≥ rhs.length)
      let (mem, carry) ← subtractDivisor mem rhs digit 0
      if carry ≠ t then do
        cassert (carry = u32 (t + 1))
        let (mem, carry) ← addDivisor mem rhs 0
        cassert (carry = 1)
        .ok (lhs.take n ++ mem, digit - 1)
      else .ok (lhs.take n ++ mem, digit)
    else .ok (lhs, digit))
  let lhs ← (if i < lhs.length then put lhs i 0 else .ok lhs)
  .ok (lhs, digit)

/-- DivRem.cpp:154-199: the body of the main loop for one value of `n = i - rhsLength`. -/
def divideStep (lhs rhs : List Nat) (shift divHi divLo n : Nat) : Res (List Nat × Nat) := do
  let (t, digit) ← divideGuess lhs rhs shift divHi divLo n
  divideApply lhs rhs n t digit

/-- DivRem.cpp:153-200: the main loop; the first argument counts the remaining iterations, the
next one handles `n = k`.  Storing into `bits` (196-197) is skipped when `bitsLength == 0`. -/
def divideLoop (rhs : List Nat) (shift divHi divLo : Nat) :
    Nat → (lhs bits : List Nat) → Res (List Nat × List Nat)
  | 0, lhs, bits => .ok (lhs, bits)
  | k + 1, lhs, bits => do
    let (lhs, digit) ← divideStep lhs rhs shift divHi divLo k
    let bits ← (if bits.length ≠ 0 then put bits k (u32 digit) else .ok bits)
    divideLoop rhs shift divHi divLo k lhs bits

/-- DivRem.cpp:124-201 `divide(uint32_t*, int, const uint32_t*, int, uint32_t*, int)`; returns
the new contents of `lhs` (the remainder) and of `bits` (the quotient; `[]` models the null
pointer with length 0). -/
def divideCore (lhs rhs bits : List Nat) : Res (List Nat × List Nat) := do
  cassert (lhs.length ≥ 1)
  cassert (rhs.length ≥ 1)
  cassert (lhs.length ≥ rhs.length)
  cassert (bits.length = lhs.length - rhs.length + 1 ∨ bits.length = 0)
  let divHi ← idx rhs (rhs.length - 1)
  let divLo ← (if rhs.length > 1 then idx rhs (rhs.length - 2) else .ok 0)
  let shift := leadingZeros divHi
  let backShift := 32 - shift
  let (divHi, divLo) ← (if shift > 0 then do
      if shift ≥ 32 then .ub .badShift else do
      let divNx ← (if rhs.length > 2 then idx rhs (rhs.length - 3) else .ok 0)
      .ok (u32 (divHi <<< shift) ||| (divLo >>> backShift),
           u32 (divLo <<< shift) ||| (divNx >>> backShift))
    else .ok (divHi, divLo))
  divideLoop rhs shift divHi divLo (lhs.length + 1 - rhs.length) lhs bits

/-- DivRem.cpp:68-85 `divide(uint_array&, uint_array&, uint_array&)`: quotient and remainder. -/
def divideVecRem (lhs rhs : List Nat) : Res (List Nat × List Nat) := do
  cassert (lhs ≠ [])
  cassert (rhs ≠ [])
  cassert (lhs.length ≥ rhs.length)
  let _ ← sizeInt lhs.length
  let (r, q) ← divideCore lhs rhs (List.replicate (lhs.length - rhs.length + 1) 0)
  .ok (q, r)

/-- DivRem.cpp:88-105 `divide(const uint_array&, const uint_array&)`. -/
def divideVec (lhs rhs : List Nat) : Res (List Nat) := do
  cassert (lhs ≠ [])
  cassert (rhs ≠ [])
  cassert (lhs.length ≥ rhs.length)
  let _ ← sizeInt lhs.length
  let (_, q) ← divideCore lhs rhs (List.replicate (lhs.length - rhs.length + 1) 0)
  .ok q

/-- DivRem.cpp:107-122 `remainder(const uint_array&, const uint_array&)`. -/
def remainderVec (lhs rhs : List Nat) : Res (List Nat) := do
  cassert (lhs ≠ [])
  cassert (rhs ≠ [])
  cassert (lhs.length ≥ rhs.length)
  let _ ← sizeInt lhs.length
  let (r, _) ← divideCore lhs rhs []
  .ok r

end BigIntegerCpp
