import Verif.Model.Memory
import Verif.Model.DivRem
/-
The routines of src/BigIntegerCalculator/{AddSub,SquMul,DivRem}.cpp that take pointers, loop for
loop and access for access.  Lengths are natural numbers, so the asserts `length >= 0` are left
out; the scalar helpers (`leadingZeros`, `divideGuessTooBig`, `fixGuess`) are those of
Model/DivRem.lean.
-/
namespace BigIntegerCpp
variable [Cfg]

/-- AddSub.cpp:40-63 `add(const uint32_t*, int, const uint32_t*, int, uint32_t*, int)`. -/
def addMem (lhs : Ptr) (lhsLength : Nat) (rhs : Ptr) (rhsLength : Nat) (bits : Ptr) (bitsLength : Nat)
    (m : Mem) : Res Mem := do
  cassert (lhsLength ≥ rhsLength)
  cassert (bitsLength = lhsLength + 1)
  let (i, carry, m) ← forLoop rhsLength (fun i (carry, m) => do
    let a ← m.load lhs i
    let b ← m.load rhs i
    let digit := u64 (u64 (a + carry) + b)
    let m ← m.store bits i (u32 digit)
    .ok (digit / 4294967296, m)) 0 (0, m)
  let (i, carry, m) ← forLoop lhsLength (fun i (carry, m) => do
    let a ← m.load lhs i
    let digit := u64 (a + carry)
    let m ← m.store bits i (u32 digit)
    .ok (digit / 4294967296, m)) i (carry, m)
  m.store bits i (u32 carry)

/-- AddSub.cpp:82-86, 168-172 and SquMul.cpp:338-342: the loops that carry on in place until the
carry is zero. -/
def carryMem (lhs : Ptr) (lhsLength i : Nat) (carry : Int) (m : Mem) : Res (Int × Mem) := do
  let (_, carry, m) ← forWhile (fun (carry, _) => carry ≠ 0) lhsLength (fun i (carry, m) => do
    let a ← m.load lhs i
    let digit ← long ((a : Int) + carry)
    let m ← m.store lhs i (u32i digit)
    .ok (digit / 4294967296, m)) i (carry, m)
  .ok (carry, m)

/-- `assert(*p >= 0)`: the comparison is always true, but a build with asserts reads the word. -/
def assertRead (p : Ptr) (m : Mem) : Res Unit :=
  if Cfg.ndebug then .ok () else do
    let _ ← m.load p 0
    .ok ()

/-- AddSub.cpp:65-89 `add_self`. -/
def addSelfMem (lhs : Ptr) (lhsLength : Nat) (rhs : Ptr) (rhsLength : Nat) (m : Mem) : Res Mem := do
  assertRead lhs m
  assertRead rhs m
  cassert (lhsLength ≥ rhsLength)
  let (i, carry, m) ← forLoop rhsLength (fun i ((carry : Int), m) => do
    let a ← m.load lhs i
    let b ← m.load rhs i
    let digit ← long ((a : Int) + carry + b)
    let m ← m.store lhs i (u32i digit)
    .ok (digit / 4294967296, m)) 0 (0, m)
  let (carry, m) ← carryMem lhs lhsLength i carry m
  cassert (carry = 0)
  .ok m

/-- AddSub.cpp:202-207: the loop of `compare`, from the last word down. -/
def compareMemLoop (lhs rhs : Ptr) : Nat → Mem → Res Int
  | 0, _ => .ok 0
  | i + 1, m => do
    let a ← m.load lhs i
    let b ← m.load rhs i
    if a < b then .ok (-1)
    else if a > b then .ok 1
    else compareMemLoop lhs rhs i m

/-- AddSub.cpp:193-210 `compare(const uint32_t*, int, const uint32_t*, int)`. -/
def compareMem (lhs : Ptr) (lhsLength : Nat) (rhs : Ptr) (rhsLength : Nat) (m : Mem) : Res Int :=
  if lhsLength < rhsLength then .ok (-1)
  else if lhsLength > rhsLength then .ok 1
  else compareMemLoop lhs rhs lhsLength m

/-- AddSub.cpp:128-157 `subtract(const uint32_t*, int, const uint32_t*, int, uint32_t*, int)`. -/
def subtractMem (lhs : Ptr) (lhsLength : Nat) (rhs : Ptr) (rhsLength : Nat) (bits : Ptr) (bitsLength : Nat)
    (m : Mem) : Res Mem := do
  cassert (lhsLength ≥ rhsLength)
  (if Cfg.ndebug then .ok () else do
    let c ← compareMem lhs lhsLength rhs rhsLength m
    cassert (c ≥ 0))
  cassert (bitsLength = lhsLength)
  let (i, carry, m) ← forLoop rhsLength (fun i ((carry : Int), m) => do
    let a ← m.load lhs i
    let b ← m.load rhs i
    let digit ← long ((a : Int) + carry - b)
    let m ← m.store bits i (u32i digit)
    .ok (digit / 4294967296, m)) 0 (0, m)
  let (_, carry, m) ← forLoop lhsLength (fun i ((carry : Int), m) => do
    let a ← m.load lhs i
    let digit ← long ((a : Int) + carry)
    let m ← m.store bits i (u32i digit)
    .ok (digit / 4294967296, m)) i (carry, m)
  cassert (carry = 0)
  .ok m

/-- AddSub.cpp:159-173 `subtract_self`. -/
def subtractSelfMem (left : Ptr) (leftLength : Nat) (right : Ptr) (rightLength : Nat) (m : Mem) :
    Res Mem := do
  let (i, carry, m) ← forLoop rightLength (fun i ((carry : Int), m) => do
    let a ← m.load left i
    let b ← m.load right i
    let digit ← long ((a : Int) + carry - b)
    let m ← m.store left i (u32i digit)
    .ok (digit / 4294967296, m)) 0 (0, m)
  let (_, m) ← carryMem left leftLength i carry m
  .ok m

/-- SquMul.cpp:307-343 `subtract_core`. -/
def subtractCoreMem (lhs : Ptr) (lhsLength : Nat) (rhs : Ptr) (rhsLength : Nat) (core : Ptr)
    (coreLength : Nat) (m : Mem) : Res Mem := do
  cassert (lhsLength ≥ rhsLength)
  cassert (coreLength ≥ lhsLength)
  let (i, carry, m) ← forLoop rhsLength (fun i ((carry : Int), m) => do
    let z ← m.load core i
    let a ← m.load lhs i
    let b ← m.load rhs i
    let digit ← long ((z : Int) + carry - a - b)
    let m ← m.store core i (u32i digit)
    .ok (digit / 4294967296, m)) 0 (0, m)
  let (i, carry, m) ← forLoop lhsLength (fun i ((carry : Int), m) => do
    let z ← m.load core i
    let a ← m.load lhs i
    let digit ← long ((z : Int) + carry - a)
    let m ← m.store core i (u32i digit)
    .ok (digit / 4294967296, m)) i (carry, m)
  let (_, m) ← carryMem core coreLength i carry m
  .ok m

/-- SquMul.cpp:195-203: the two nested loops of the school multiplication. -/
def mulSchoolMem (left : Ptr) (leftLength : Nat) (right : Ptr) (rightLength : Nat) (bits : Ptr)
    (m : Mem) : Res Mem := do
  let (_, m) ← forLoop rightLength (fun i m => do
    let (_, carry, m) ← forLoop leftLength (fun j (carry, m) => do
      let z ← m.load bits (i + j)
      let a ← m.load left j
      let b ← m.load right i
      let digits := u64 (u64 (z + carry) + u64 (a * b))
      let m ← m.store bits (i + j) (u32 digits)
      .ok (digits / 4294967296, m)) 0 (0, m)
    m.store bits (i + leftLength) (u32 carry)) 0 m
  .ok m

/-- SquMul.cpp:171-305 `multiply(uint32_t*, int, uint32_t*, int, uint32_t*, int)`: Karatsuba's
algorithm inside the result array, with local arrays `leftFold`, `rightFold` and `core`.  The two
branches on `AllocationThreshold` (252-303) are the same code and are merged. -/
def mulMem (left : Ptr) (leftLength : Nat) (right : Ptr) (rightLength : Nat) (bits : Ptr)
    (bitsLength : Nat) (m : Mem) : Res Mem := do
  cassert (leftLength ≥ rightLength)
  cassert (bitsLength = leftLength + rightLength)
  if _h : rightLength < MultiplyThreshold then mulSchoolMem left leftLength right rightLength bits m
  else do
    let n := rightLength / 2
    let n2 := n * 2
    let leftHigh := left.plus n
    let leftHighLength := leftLength - n
    let rightHigh := right.plus n
    let rightHighLength := rightLength - n
    let bitsHigh := bits.plus n2
    let bitsHighLength := bitsLength - n2
    let m ← mulMem left n right n bits n2 m
    let m ← mulMem leftHigh leftHighLength rightHigh rightHighLength bitsHigh bitsHighLength m
    let leftFoldLength := leftHighLength + 1
    let rightFoldLength := rightHighLength + 1
    let coreLength := leftFoldLength + rightFoldLength
    let live := m.length
    let (leftFold, m) := m.alloc (List.replicate leftFoldLength 0)
    let (rightFold, m) := m.alloc (List.replicate rightFoldLength 0)
    let (core, m) := m.alloc (List.replicate coreLength 0)
    let m ← addMem leftHigh leftHighLength left n leftFold leftFoldLength m
    let m ← addMem rightHigh rightHighLength right n rightFold rightFoldLength m
    let m ← mulMem leftFold leftFoldLength rightFold rightFoldLength core coreLength m
    let m ← subtractCoreMem bitsHigh bitsHighLength bits n2 core coreLength m
    let m ← addSelfMem (bits.plus n) (bitsLength - n) core coreLength m
    .ok (m.release live)
termination_by rightLength
decreasing_by all_goals (simp only [MultiplyThreshold] at _h; omega)

/-- SquMul.cpp:42-53: the two nested loops of the school squaring. -/
def sqSchoolMem (value : Ptr) (valueLength : Nat) (bits : Ptr) (m : Mem) : Res Mem := do
  let (_, m) ← forLoop valueLength (fun i m => do
    let (_, carry, m) ← forLoop i (fun j (carry, m) => do
      let z ← m.load bits (i + j)
      let digit1 := u64 (z + carry)
      let a ← m.load value j
      let b ← m.load value i
      let digit2 := u64 (a * b)
      let m ← m.store bits (i + j) (u32 (u64 (digit1 + u64 (digit2 * 2))))
      .ok (u64 (digit2 + digit1 / 2) / 2147483648, m)) 0 (0, m)
    let a ← m.load value i
    let b ← m.load value i
    let digits := u64 (u64 (a * b) + carry)
    let m ← m.store bits (i + i) (u32 digits)
    m.store bits (i + i + 1) (u32 (digits / 4294967296))) 0 m
  .ok m

/-- SquMul.cpp:16-131 `square(uint32_t*, int, uint32_t*, int)`, with local arrays `fold` and
`core`.  The two identical branches on `AllocationThreshold` (93-129) are merged. -/
def sqMem (value : Ptr) (valueLength : Nat) (bits : Ptr) (bitsLength : Nat) (m : Mem) : Res Mem := do
  cassert (bitsLength = valueLength + valueLength)
  if _h : valueLength < SquareThreshold then sqSchoolMem value valueLength bits m
  else do
    let n := valueLength / 2
    let n2 := n * 2
    let valueHigh := value.plus n
    let valueHighLength := valueLength - n
    let bitsHigh := bits.plus n2
    let bitsHighLength := bitsLength - n2
    let m ← sqMem value n bits n2 m
    let m ← sqMem valueHigh valueHighLength bitsHigh bitsHighLength m
    let foldLength := valueHighLength + 1
    let coreLength := foldLength + foldLength
    let live := m.length
    let (fold, m) := m.alloc (List.replicate foldLength 0)
    let (core, m) := m.alloc (List.replicate coreLength 0)
    let m ← addMem valueHigh valueHighLength value n fold foldLength m
    let m ← sqMem fold foldLength core coreLength m
    let m ← subtractCoreMem bitsHigh bitsHighLength bits n2 core coreLength m
    let m ← addSelfMem (bits.plus n) (bitsLength - n) core coreLength m
    .ok (m.release live)
termination_by valueLength
decreasing_by all_goals (simp only [SquareThreshold] at _h; omega)

/-- DivRem.cpp:203-219 `add_divisor`; returns the carry. -/
def addDivisorMem (lhs : Ptr) (lhsLength : Nat) (rhs : Ptr) (rhsLength : Nat) (m : Mem) :
    Res (Nat × Mem) := do
  cassert (lhsLength ≥ rhsLength)
  let (_, carry, m) ← forLoop rhsLength (fun i (carry, m) => do
    let a ← m.load lhs i
    let b ← m.load rhs i
    let digit := u64 (u64 (a + carry) + b)
    let m ← m.store lhs i (u32 digit)
    .ok (digit / 4294967296, m)) 0 (0, m)
  .ok (u32 carry, m)

/-- DivRem.cpp:221-243 `subtract_divisor`; returns the carry. -/
def subtractDivisorMem (lhs : Ptr) (lhsLength : Nat) (rhs : Ptr) (rhsLength q : Nat) (m : Mem) :
    Res (Nat × Mem) := do
  cassert (lhsLength ≥ rhsLength)
  cassert (q ≤ 0xFFFFFFFF)
  let (_, carry, m) ← forLoop rhsLength (fun i (carry, m) => do
    let b ← m.load rhs i
    let carry := u64 (carry + u64 (b * q))
    let digit := u32 carry
    let carry := carry / 4294967296
    let a ← m.load lhs i
    let carry := if a < digit then u64 (carry + 1) else carry
    let a ← m.load lhs i
    let m ← m.store lhs i (u32sub a digit)
    .ok (carry, m)) 0 (0, m)
  .ok (u32 carry, m)

/-- DivRem.cpp:154-199: the body of the main loop of `divide` for `i = n + rhsLength`. -/
def divideMemStep (lhs : Ptr) (lhsLength : Nat) (rhs : Ptr) (rhsLength : Nat) (bits : Ptr)
    (bitsLength shift divHi divLo n : Nat) (m : Mem) : Res Mem := do
  let backShift := 32 - shift
  let i := n + rhsLength
  let t ← (if i < lhsLength then m.load lhs i else .ok 0)
  let v1 ← m.load lhs (i - 1)
  let valHi := u64 (t <<< 32) ||| v1
  let valLo ← (if i > 1 then m.load lhs (i - 2) else .ok 0)
  let (valHi, valLo) ← (if shift > 0 then do
      let valNx ← (if i > 2 then m.load lhs (i - 3) else .ok 0)
      .ok (u64 (valHi <<< shift) ||| (valLo >>> backShift),
           u32 (valLo <<< shift) ||| (valNx >>> backShift))
    else .ok (valHi, valLo))
  if divHi = 0 then .throw .divideByZero else do
  let digit := valHi / divHi
  let digit := if digit > 0xFFFFFFFF then 0xFFFFFFFF else digit
  let digit := fixGuess valHi valLo divHi divLo digit
  let (digit, m) ← (if digit > 0 then do
      let (carry, m) ← subtractDivisorMem (lhs.plus n) (lhsLength - n) rhs rhsLength digit m
      if carry ≠ t then do
        cassert (carry = u32 (t + 1))
        let (carry, m) ← addDivisorMem (lhs.plus n) (lhsLength - n) rhs rhsLength m
        cassert (carry = 1)
        .ok (digit - 1, m)
      else .ok (digit, m)
    else .ok (digit, m))
  let m ← (if bitsLength ≠ 0 then m.store bits n (u32 digit) else .ok m)
  if i < lhsLength then m.store lhs i 0 else .ok m

/-- DivRem.cpp:124-201 `divide(uint32_t*, int, const uint32_t*, int, uint32_t*, int)`: the
remainder replaces `lhs`; `bitsLength = 0` is the call with a null `bits`. -/
def divideMem (lhs : Ptr) (lhsLength : Nat) (rhs : Ptr) (rhsLength : Nat) (bits : Ptr)
    (bitsLength : Nat) (m : Mem) : Res Mem := do
  cassert (lhsLength ≥ 1)
  cassert (rhsLength ≥ 1)
  cassert (lhsLength ≥ rhsLength)
  cassert (bitsLength = lhsLength - rhsLength + 1 ∨ bitsLength = 0)
  let divHi ← m.load rhs (rhsLength - 1)
  let divLo ← (if rhsLength > 1 then m.load rhs (rhsLength - 2) else .ok 0)
  let shift := leadingZeros divHi
  let backShift := 32 - shift
  let (divHi, divLo) ← (if shift > 0 then do
      if shift ≥ 32 then .ub .badShift else do
      let divNx ← (if rhsLength > 2 then m.load rhs (rhsLength - 3) else .ok 0)
      .ok (u32 (divHi <<< shift) ||| (divLo >>> backShift),
           u32 (divLo <<< shift) ||| (divNx >>> backShift))
    else .ok (divHi, divLo))
  forDown (fun n m => divideMemStep lhs lhsLength rhs rhsLength bits bitsLength shift divHi divLo n m)
    (lhsLength + 1 - rhsLength) m

/-- DivRem.cpp:16-25, 38-46: the loops of `divide(uint_array&, uint32_t)`; `lhs` and `quotient`
are vectors here, addressed by index. -/
def divideWordMem (lhs : Ptr) (lhsLength rhs : Nat) (quotient : Ptr) (m : Mem) : Res (Nat × Mem) :=
  forDown (fun i (carry, m) => do
    let a ← m.load lhs i
    let value := u64 (carry <<< 32) ||| a
    if rhs = 0 then .throw .divideByZero else do
    let digit := value / rhs
    let m ← m.store quotient i (u32 digit)
    .ok (u64sub value (u64 (digit * rhs)), m)) lhsLength (0, m)

/-- DivRem.cpp:57-63: the loop of `remainder(const uint_array&, unsigned int)`. -/
def remainderWordMem (lhs : Ptr) (lhsLength rhs : Nat) (m : Mem) : Res Nat :=
  forDown (fun i carry => do
    let a ← m.load lhs i
    let value := u64 (carry <<< 32) ||| a
    if rhs = 0 then .throw .divideByZero else .ok (value % rhs)) lhsLength 0

/-- SquMul.cpp:141-151: the loop of `multiply(uint_array, uint32_t)`. -/
def multiplyWordMem (lhs : Ptr) (lhsLength rhs : Nat) (bits : Ptr) (m : Mem) : Res Mem := do
  let (i, carry, m) ← forLoop lhsLength (fun i (carry, m) => do
    let a ← m.load lhs i
    let digits := u64 (u64 (a * rhs) + carry)
    let m ← m.store bits i (u32 digits)
    .ok (digits / 4294967296, m)) 0 (0, m)
  m.store bits i (u32 carry)

/-- AddSub.cpp:12-23 `add(const uint_array&, uint32_t)`. -/
def addWordMem (lhs : Ptr) (lhsLength rhs : Nat) (bits : Ptr) (m : Mem) : Res Mem := do
  let a ← m.load lhs 0
  let digit ← long ((a : Int) + rhs)
  let m ← m.store bits 0 (u32i digit)
  let (_, carry, m) ← forLoop lhsLength (fun i ((carry : Int), m) => do
    let a ← m.load lhs i
    let digit ← long ((a : Int) + carry)
    let m ← m.store bits i (u32i digit)
    .ok (digit / 4294967296, m)) 1 (digit / 4294967296, m)
  m.store bits lhsLength (u32i carry)

/-- AddSub.cpp:100-112 `subtract(const uint_array&, uint32_t)`. -/
def subtractWordMem (lhs : Ptr) (lhsLength rhs : Nat) (bits : Ptr) (m : Mem) : Res Mem := do
  let a ← m.load lhs 0
  let digit ← long ((a : Int) - rhs)
  let m ← m.store bits 0 (u32i digit)
  let (_, _, m) ← forLoop lhsLength (fun i ((carry : Int), m) => do
    let a ← m.load lhs i
    let digit ← long ((a : Int) + carry)
    let m ← m.store bits i (u32i digit)
    .ok (digit / 4294967296, m)) 1 (digit / 4294967296, m)
  .ok m

end BigIntegerCpp
