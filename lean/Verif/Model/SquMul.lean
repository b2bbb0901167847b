import Verif.Model.AddSub
/-
Model of src/BigIntegerCalculator/SquMul.cpp.
-/
namespace BigIntegerCpp
variable [Cfg]

/-- include/BigIntegerCalculator.h:117 `MultiplyThreshold`. -/
def MultiplyThreshold : Nat := 32
/-- include/BigIntegerCalculator.h:118 `SquareThreshold`. -/
def SquareThreshold : Nat := 32

/-- SquMul.cpp:145-151: the loop and final store of `multiply(uint_array, uint32_t)`. -/
def mulWordLoop : List Nat → Nat → Nat → List Nat
  | [], _, c => [u32 c]
  | x :: xs, y, c =>
    let digits := u64 (u64 (x * y) + c)
    u32 digits :: mulWordLoop xs y (digits / 4294967296)

/-- SquMul.cpp:133-154 `multiply(uint_array, uint32_t)`. -/
def multiplyWord (lhs : List Nat) (rhs : Nat) : Res (List Nat) := do
  cassert (lhs ≠ [])
  .ok (mulWordLoop lhs rhs 0)

/-- SquMul.cpp:307-343 `subtract_core`, all three loops; the result is the new contents of
`core`.  A missing word of `core` or `lhs` is an out-of-bounds access. -/
def subtractCoreLoop : (core lhs rhs : List Nat) → Int → Res (List Nat × Int)
  | core, [], [], c => carrySelf core c
  | _, [], _ :: _, _ => .ub .outOfBounds
  | [], _ :: _, _, _ => .ub .outOfBounds
  | x :: xs, l :: ls, [], c => do
    let digit ← long ((x : Int) + c - l)
    let (r, c') ← subtractCoreLoop xs ls [] (digit / 4294967296)
    .ok (u32i digit :: r, c')
  | x :: xs, l :: ls, y :: ys, c => do
    let digit ← long ((x : Int) + c - l - y)
    let (r, c') ← subtractCoreLoop xs ls ys (digit / 4294967296)
    .ok (u32i digit :: r, c')

/-- SquMul.cpp:307-343 `subtract_core` with its asserts.  There is no assert on the carry. -/
def subtractCore (lhs rhs core : List Nat) : Res (List Nat) := do
  cassert (lhs.length ≥ rhs.length)
  cassert (core.length ≥ lhs.length)
  let (r, _) ← subtractCoreLoop core lhs rhs 0
  .ok r

/-- SquMul.cpp:196-202: one row of the school multiplication; `bits` is the memory from
`bits[i]` on and `r` is `right[i]`. -/
def mulRow : (bits left : List Nat) → (r c : Nat) → Res (List Nat)
  | _ :: bs, [], _, c => .ok (u32 c :: bs)
  | [], _, _, _ => .ub .outOfBounds
  | b :: bs, l :: ls, r, c => do
    let digits := u64 (u64 (b + c) + u64 (l * r))
    let t ← mulRow bs ls r (digits / 4294967296)
    .ok (u32 digits :: t)

/-- SquMul.cpp:195-203: all rows; `bits` is the memory from `bits[i]` on. -/
def mulSchool (left : List Nat) : (right bits : List Nat) → Res (List Nat)
  | [], bits => .ok bits
  | r :: rs, bits => do
    match ← mulRow bits left r 0 with
    | [] => .ub .outOfBounds
    | b :: bs => do
      let t ← mulSchool left rs bs
      .ok (b :: t)

/-- SquMul.cpp:171-305 `multiply(uint32_t*, int, uint32_t*, int, uint32_t*, int)`; the result is
the new contents of `bits`.  `rightLength` is `right.length`, a separate parameter as in the
code; the two branches on `AllocationThreshold` (252-303) are the same code and are merged.
`bits` matters: the school rows read it before writing it. -/
def mulCore (left right bits : List Nat) (rightLength : Nat) : Res (List Nat) := do
  cassert (left.length ≥ rightLength)
  cassert (bits.length = left.length + rightLength)
  if _h : rightLength < MultiplyThreshold then mulSchool left right bits
  else do
    let n := rightLength / 2
    let n2 := n * 2
    let leftLow ← slice left 0 n
    let leftHigh ← slice left n (left.length - n)
    let rightLow ← slice right 0 n
    let rightHigh ← slice right n (rightLength - n)
    let bitsLow ← slice bits 0 n2
    let bitsHigh ← slice bits n2 (bits.length - n2)
    let bitsLow ← mulCore leftLow rightLow bitsLow n
    let bitsHigh ← mulCore leftHigh rightHigh bitsHigh (rightLength - n)
    let leftFold ← addPtr leftHigh leftLow (leftHigh.length + 1)
    let rightFold ← addPtr rightHigh rightLow (rightLength - n + 1)
    let core ← mulCore leftFold rightFold
      (List.replicate (leftFold.length + (rightLength - n + 1)) 0) (rightLength - n + 1)
    let core ← subtractCore bitsHigh bitsLow core
    let all := bitsLow ++ bitsHigh
    let upper ← slice all n (all.length - n)
    let upper ← addSelf upper core
    .ok (all.take n ++ upper)
termination_by rightLength
decreasing_by all_goals (simp only [MultiplyThreshold] at _h; omega)

/-- SquMul.cpp:156-169 `multiply(uint_array, uint_array)`. -/
def multiplyVec (lhs rhs : List Nat) : Res (List Nat) := do
  cassert (lhs ≠ [])
  cassert (rhs ≠ [])
  cassert (lhs.length ≥ rhs.length)
  let _ ← sizeInt (lhs.length + rhs.length)
  mulCore lhs rhs (List.replicate (lhs.length + rhs.length) 0) rhs.length

/-- SquMul.cpp:43-52: one row of the school squaring; `bits` is the memory from `bits[i]` on,
`pre` is `value[0..i)`, `v` is `value[i]`. -/
def sqRow : (bits pre : List Nat) → (v c : Nat) → Res (List Nat)
  | _ :: _ :: bs, [], v, c =>
    let digits := u64 (u64 (v * v) + c)
    .ok (u32 digits :: u32 (digits / 4294967296) :: bs)
  | b :: bs, p :: ps, v, c => do
    let digit1 := u64 (b + c)
    let digit2 := u64 (p * v)
    let t ← sqRow bs ps v (u64 (digit2 + digit1 / 2) / 2147483648)
    .ok (u32 (u64 (digit1 + u64 (digit2 * 2))) :: t)
  | _, _, _, _ => .ub .outOfBounds

/-- SquMul.cpp:42-53: all rows; `pre` is `value[0..i)`, the argument list is `value[i..)`,
`bits` is the memory from `bits[i]` on. -/
def sqSchool : (pre vs bits : List Nat) → Res (List Nat)
  | _, [], bits => .ok bits
  | pre, v :: vs, bits => do
    match ← sqRow bits pre v 0 with
    | [] => .ub .outOfBounds
    | b :: bs => do
      let t ← sqSchool (pre ++ [v]) vs bs
      .ok (b :: t)

/-- SquMul.cpp:16-131 `square(uint32_t*, int, uint32_t*, int)`; the result is the new contents of
`bits`.  The two identical branches on `AllocationThreshold` (93-129) are merged. -/
def sqCore (value bits : List Nat) (valueLength : Nat) : Res (List Nat) := do
  cassert (bits.length = valueLength + valueLength)
  if _h : valueLength < SquareThreshold then sqSchool [] value bits
  else do
    let n := valueLength / 2
    let n2 := n * 2
    let valueLow ← slice value 0 n
    let valueHigh ← slice value n (valueLength - n)
    let bitsLow ← slice bits 0 n2
    let bitsHigh ← slice bits n2 (bits.length - n2)
    let bitsLow ← sqCore valueLow bitsLow n
    let bitsHigh ← sqCore valueHigh bitsHigh (valueLength - n)
    let fold ← addPtr valueHigh valueLow (valueLength - n + 1)
    let core ← sqCore fold (List.replicate ((valueLength - n + 1) + (valueLength - n + 1)) 0)
      (valueLength - n + 1)
    let core ← subtractCore bitsHigh bitsLow core
    let all := bitsLow ++ bitsHigh
    let upper ← slice all n (all.length - n)
    let upper ← addSelf upper core
    .ok (all.take n ++ upper)
termination_by valueLength
decreasing_by all_goals (simp only [SquareThreshold] at _h; omega)

/-- SquMul.cpp:4-14 `square(uint_array&)`. -/
def squareVec (value : List Nat) : Res (List Nat) := do
  cassert (value ≠ [])
  let _ ← sizeInt (value.length * 2)
  sqCore value (List.replicate (value.length * 2) 0) value.length

end BigIntegerCpp
