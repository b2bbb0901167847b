import Verif.Spec
/-
Model of src/BigIntegerCalculator/AddSub.cpp.

A pointer+length parameter is the list of the words in the range; in-place updates return the
new contents.  Words are natural numbers; `WordsOk` says they are below 2^32.
-/
namespace BigIntegerCpp
variable [Cfg]

/-- AddSub.cpp:18-22, 106-110, 150-154: `digit = lhs[i] + carry` over the remaining words with a
signed `long` carry. -/
def carryLoop : List Nat → Int → Res (List Nat × Int)
  | [], c => .ok ([], c)
  | x :: xs, c => do
    let digit ← long ((x : Int) + c)
    let (r, c') ← carryLoop xs (digit / 4294967296)
    .ok (u32i digit :: r, c')

/-- AddSub.cpp:82-86, 168-172 and SquMul.cpp:338-342: the same in place, stopping as soon as the
carry is zero. -/
def carrySelf : List Nat → Int → Res (List Nat × Int)
  | [], c => .ok ([], c)
  | x :: xs, c =>
    if c = 0 then .ok (x :: xs, 0) else do
      let digit ← long ((x : Int) + c)
      let (r, c') ← carrySelf xs (digit / 4294967296)
      .ok (u32i digit :: r, c')

/-- AddSub.cpp:4-26 `add(const uint_array&, uint32_t)`.  Reading `lhs[0]` of an empty array is
out of bounds. -/
def addWord (lhs : List Nat) (rhs : Nat) : Res (List Nat) := do
  cassert (lhs ≠ [])
  match lhs with
  | [] => .ub .outOfBounds
  | x :: xs => do
    let digit ← long ((x : Int) + rhs)
    let (r, c) ← carryLoop xs (digit / 4294967296)
    .ok (u32i digit :: r ++ [u32i c])

/-- AddSub.cpp:50-62: the two loops and the final store of the pointer version of `add`, with an
unsigned 64-bit carry.  `rhs` longer than `lhs` reads past the end of `lhs`. -/
def addLoop : List Nat → List Nat → Nat → Res (List Nat)
  | [], [], c => .ok [u32 c]
  | [], _ :: _, _ => .ub .outOfBounds
  | x :: xs, [], c => do
    let digit := u64 (x + c)
    let r ← addLoop xs [] (digit / 4294967296)
    .ok (u32 digit :: r)
  | x :: xs, y :: ys, c => do
    let digit := u64 (u64 (x + c) + y)
    let r ← addLoop xs ys (digit / 4294967296)
    .ok (u32 digit :: r)

/-- AddSub.cpp:40-63 `add(const uint32_t*, int, const uint32_t*, int, uint32_t*, int)`.  Every
word of `bits` is overwritten, so only its length is a parameter. -/
def addPtr (lhs rhs : List Nat) (bitsLength : Nat) : Res (List Nat) := do
  cassert (lhs.length ≥ rhs.length)
  cassert (bitsLength = lhs.length + 1)
  addLoop lhs rhs 0

/-- AddSub.cpp:28-38 `add(const uint_array&, const uint_array&)`. -/
def addVec (lhs rhs : List Nat) : Res (List Nat) := do
  cassert (lhs ≠ [])
  cassert (rhs ≠ [])
  cassert (lhs.length ≥ rhs.length)
  let _ ← sizeInt (lhs.length + 1)
  addPtr lhs rhs (lhs.length + 1)

/-- AddSub.cpp:77-86: the loops of `add_self`. -/
def addSelfLoop : List Nat → List Nat → Int → Res (List Nat × Int)
  | xs, [], c => carrySelf xs c
  | [], _ :: _, _ => .ub .outOfBounds
  | x :: xs, y :: ys, c => do
    let digit ← long ((x : Int) + c + y)
    let (r, c') ← addSelfLoop xs ys (digit / 4294967296)
    .ok (u32i digit :: r, c')

/-- AddSub.cpp:65-89 `add_self`; the result is the new contents of `lhs`.  The two
`assert(*p >= 0)` compare an unsigned number with zero and are left out. -/
def addSelf (lhs rhs : List Nat) : Res (List Nat) := do
  cassert (lhs.length ≥ rhs.length)
  let (r, c) ← addSelfLoop lhs rhs 0
  cassert (c = 0)
  .ok r

/-- AddSub.cpp:184-189, 202-207: most significant word first. -/
def compareLoop : List Nat → List Nat → Int
  | x :: xs, y :: ys =>
    let hi := compareLoop xs ys
    if hi ≠ 0 then hi else if x < y then -1 else if x > y then 1 else 0
  | _, _ => 0

/-- AddSub.cpp:175-191 and 193-210, both `compare` overloads (identical apart from the
`!empty` asserts of the first, which its callers have already checked).  The loop runs from the
last word down; `compareLoop` decides by the higher words first. -/
def compareWords (lhs rhs : List Nat) : Int :=
  if lhs.length < rhs.length then -1
  else if lhs.length > rhs.length then 1
  else compareLoop lhs rhs

/-- AddSub.cpp:91-113 `subtract(const uint_array&, uint32_t)`.  The carry out of the top word is
dropped. -/
def subtractWord (lhs : List Nat) (rhs : Nat) : Res (List Nat) := do
  cassert (lhs ≠ [])
  cassert (lhs.headD 0 ≥ rhs ∨ lhs.length ≥ 2)
  match lhs with
  | [] => .ub .outOfBounds
  | x :: xs => do
    let digit ← long ((x : Int) - rhs)
    let (r, _) ← carryLoop xs (digit / 4294967296)
    .ok (u32i digit :: r)

/-- AddSub.cpp:145-154: the loops of the pointer version of `subtract`. -/
def subtractLoop : List Nat → List Nat → Int → Res (List Nat × Int)
  | xs, [], c => carryLoop xs c
  | [], _ :: _, _ => .ub .outOfBounds
  | x :: xs, y :: ys, c => do
    let digit ← long ((x : Int) + c - y)
    let (r, c') ← subtractLoop xs ys (digit / 4294967296)
    .ok (u32i digit :: r, c')

/-- AddSub.cpp:128-157 `subtract(const uint32_t*, int, const uint32_t*, int, uint32_t*, int)`. -/
def subtractPtr (lhs rhs : List Nat) (bitsLength : Nat) : Res (List Nat) := do
  cassert (lhs.length ≥ rhs.length)
  cassert (compareWords lhs rhs ≥ 0)
  cassert (bitsLength = lhs.length)
  let (r, c) ← subtractLoop lhs rhs 0
  cassert (c = 0)
  .ok r

/-- AddSub.cpp:115-126 `subtract(const uint_array&, const uint_array&)`. -/
def subtractVec (lhs rhs : List Nat) : Res (List Nat) := do
  cassert (lhs ≠ [])
  cassert (rhs ≠ [])
  cassert (lhs.length ≥ rhs.length)
  cassert (compareWords lhs rhs ≥ 0)
  let _ ← sizeInt lhs.length
  subtractPtr lhs rhs lhs.length

end BigIntegerCpp
