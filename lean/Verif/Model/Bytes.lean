import Verif.Model.Bits
/-
Model of src/BigInteger.cpp: byte-array constructor and `to_byte_array`.
-/
namespace BigIntegerCpp
variable [Cfg]

/-- `_sign << 8` on `int` (BigInteger.cpp:136, 140).  For a negative operand undefined by the
letter of C++17. -/
def shl8 (s : Int) : Res Int :=
  if s < 0 ∧ Cfg.strictShift then .ub .badShift
  else if s ≥ 0 ∧ s * 256 ≥ 4294967296 then .ub .badShift
  else .ok (i32 (u32i (s * 256)))

/-- BigInteger.cpp:135-141: `_sign = (_sign << 8) | value[i]` over `n` bytes starting at index
`cur`, moving by `step`. -/
def packSign (value : List Nat) (step : Int) : Nat → Int → Int → Res Int
  | 0, _, s => .ok s
  | n + 1, cur, s => do
    let s ← shl8 s
    let b ← idxI value cur
    packSign value step n (cur + step) (i32 (u32i s ||| b))

/-- BigInteger.cpp:168-172, 179-183, 196-205: `val[d] = (val[d] << 8) | value[cur]` over `n`
bytes starting at index `cur`, moving by `step`. -/
def packWord (value : List Nat) (step : Int) : Nat → Int → Nat → Res Nat
  | 0, _, w => .ok w
  | n + 1, cur, w => do
    let b ← idxI value cur
    packWord value step n (cur + step) (u32 (w <<< 8) ||| b)

/-- BigInteger.cpp:166-175 (`step = 1`) and 177-186 (`step = -1`): the complete words; after each
word `curByte` has moved by `4*step` and is moved back by `8*step`. -/
def packWords (value : List Nat) (step : Int) : Nat → Int → Res (List Nat)
  | 0, _ => .ok []
  | k + 1, cur => do
    let w ← packWord value step 4 cur 0
    let ws ← packWords value step k (cur + 4 * step - 8 * step)
    .ok (w :: ws)

/-- BigInteger.cpp:93-252 `BigInteger(byte_array, isUnsigned, isBigEndian)`.  In the big-endian
case leading zero bytes are erased from `value` (103-111); in the little-endian case only
`byteCount` shrinks (112-118). -/
def ofBytes (value : List Nat) (isUnsigned isBigEndian : Bool) : Res BigInt := do
  let byteCount ← sizeInt value.length
  let msb := if isBigEndian then value.headD 0 else value.getLast?.getD 0
  let isNegative := decide (byteCount > 0) && decide (msb &&& 0x80 ≠ 0) && !isUnsigned
  let (value, byteCount) :=
    if byteCount > 0 ∧ msb = 0 then
      if isBigEndian then
        let v := value.dropWhile (· = 0)
        (v, v.length)
      else (value, trimLen value)
    else (value, byteCount)
  if byteCount = 0 then checked zeroInt
  else if byteCount ≤ 4 then do
    let s0 : Int := if isNegative then -1 else 0
    let s ← (if isBigEndian then packSign value 1 byteCount 0 s0
      else packSign value (-1) byteCount ((byteCount : Int) - 1) s0)
    let b : BigInt := if s < 0 ∧ !isNegative then ⟨1, [u32i s]⟩ else ⟨s, []⟩
    let b : BigInt := if b.sign = -2147483648 then minInt else b
    checked b
  else do
    let unaligned := byteCount % 4
    let full := byteCount / 4
    let words ← (if isBigEndian then packWords value 1 full ((byteCount : Int) - 4)
      else packWords value (-1) full 3)
    let top ← (if unaligned ≠ 0 then do
        let w0 := if isNegative then 4294967295 else 0
        let w ← (if isBigEndian then packWord value 1 unaligned 0 w0
          else packWord value (-1) unaligned ((byteCount : Int) - 1) w0)
        .ok [w]
      else .ok [])
    let val := words ++ top
    if isNegative then
      let val := twosComplement val
      let len := trimLen val
      if len = 1 ∧ val.headD 0 = 1 then .ok minusOneInt
      else if len = 1 ∧ val.headD 0 = 2147483648 then .ok minInt
      else if len = 1 ∧ i32 (val.headD 0) > 0 then checked ⟨-1 * i32 (val.headD 0), []⟩
      else if len ≠ val.length then checked ⟨-1, val.take len⟩
      else checked ⟨-1, val⟩
    else checked ⟨1, val⟩

/-- BigInteger.h:158-160 `enum GetBytesMode`. -/
inductive GetBytesMode where
  | allocateArray
  | count
  deriving DecidableEq, Repr

/-- A run of `destination[curByte] = b; curByte += increment;` (BigInteger.cpp:1356-1363,
1368-1380, 1387-1390).  In the code the increment of the last two groups precedes the store; the
index used for each store is the same. -/
def storeBytes (inc : Int) : List Nat → List Nat → Int → Res (List Nat × Int)
  | [], dest, cur => .ok (dest, cur)
  | b :: bs, dest, cur => do
    let dest ← putI dest cur b
    storeBytes inc bs dest (cur + inc)

/-- Byte `k` of a word: `static_cast<byte>(w >> 8k)`. -/
def byteOf (w k : Nat) : Nat := (w >>> (8 * k)) % 256

/-- BigInteger.cpp:1295-1297: index of the first nonzero word; running off the array is
out of bounds. -/
def firstNonZero : List Nat → Res Nat
  | [] => .ub .outOfBounds
  | x :: xs => if x = 0 then do let n ← firstNonZero xs; .ok (n + 1) else .ok 0

namespace BigInt

/-- BigInteger.cpp:1345-1354: the words below the top one, complemented for negative values
(`i <= nonZeroDwordIndex` adds one). -/
def lowDwords (neg : Bool) (nz : Nat) : Nat → List Nat → List Nat
  | _, [] => []
  | i, w :: ws =>
    (if neg then (if i ≤ nz then u32 (u32not w + 1) else u32not w) else w) :: lowDwords neg nz (i + 1) ws

/-- BigInteger.cpp:1257-1393 `to_byte_array(mode, isUnsigned, isBigEndian, bytesWritten)`.
`hasPtr` says whether `bytesWritten` is non-null; the second component is the value stored
through it, if any. -/
def toBytesMode (a : BigInt) (mode : GetBytesMode) (isUnsigned isBigEndian hasPtr : Bool) :
    Res (List Nat × Option Nat) :=
  if a.sign = 0 then
    if hasPtr then .ok (if mode = .count then [] else [0], some 1) else .ub .nullDeref
  else if isUnsigned ∧ a.sign < 0 then .throw .runtimeError
  else do
    let neg := decide (a.bits.length ≠ 0 ∧ a.sign = -1)
    let (highByte, highDword, nz) ← (
      if a.bits.length = 0 then .ok ((if a.sign < 0 then 0xff else 0), u32i a.sign, 0)
      else if a.sign = -1 then do
        cassert (a.bits.getLast?.getD 0 ≠ 0)
        let nz ← firstNonZero a.bits
        let h := u32not (a.bits.getLast?.getD 0)
        if a.bits.length - 1 = nz then do
          cassert (h ≤ 4294967294)
          .ok (0xff, u32 (h + 1), nz)
        else .ok (0xff, h, nz)
      else do
        cassert (a.sign = 1)
        .ok (0, a.bits.getLast?.getD 0, 0))
    let msbIndex :=
      if byteOf highDword 3 ≠ highByte then 3
      else if byteOf highDword 2 ≠ highByte then 2
      else if byteOf highDword 1 ≠ highByte then 1
      else 0
    let msb := byteOf highDword msbIndex
    let needExtraByte := decide (msb &&& 0x80 ≠ highByte &&& 0x80) && !isUnsigned
    let length := msbIndex + 1 + (if needExtraByte then 1 else 0)
    let length ← (if a.bits.length ≠ 0 then sizeInt (4 * (a.bits.length - 1) + length) else .ok length)
    if mode = .count then
      if hasPtr then .ok ([], some length) else .ub .nullDeref
    else do
      let destination := List.replicate length 0
      let curByte : Int := if isBigEndian then (length : Int) - 1 else 0
      let increment : Int := if isBigEndian then -1 else 1
      let low := (lowDwords neg nz 0 a.bits.dropLast).flatMap
        fun w => [byteOf w 0, byteOf w 1, byteOf w 2, byteOf w 3]
      let (destination, curByte) ← storeBytes increment low destination curByte
      let top := (List.range (msbIndex + 1)).map (byteOf highDword)
      let (destination, curByte) ← storeBytes increment top destination curByte
      -- `curByte` here is one step past the last store
      let last := curByte - increment
      cassert (isBigEndian ∨ (!needExtraByte ∧ last = (length : Int) - 1) ∨
        (needExtraByte ∧ last = (length : Int) - 2))
      cassert (!isBigEndian ∨ (!needExtraByte ∧ last = 0) ∨ (needExtraByte ∧ last = 1))
      let (destination, _) ← storeBytes increment (if needExtraByte then [highByte] else [])
        destination curByte
      .ok (destination, none)

/-- BigInteger.cpp:1252-1255 `to_byte_array(isUnsigned, isBigEndian)`. -/
def toBytes (a : BigInt) (isUnsigned isBigEndian : Bool) : Res (List Nat) := do
  let (d, _) ← a.toBytesMode .allocateArray isUnsigned isBigEndian true
  .ok d

/-- BigInteger.cpp:1190-1194 `get_byte_count`; `bytesWritten` starts at 0. -/
def byteCount (a : BigInt) (isUnsigned : Bool) : Res Nat := do
  let (_, n) ← a.toBytesMode .count isUnsigned false true
  .ok (n.getD 0)

end BigInt
end BigIntegerCpp
