import Verif.Model.Cost
import Verif.Model.Bytes
/-
The shifts, bitwise operators, comparisons, queries and byte conversions again, with what they cost.
Everything else is as in Model/Bits.lean, Model/Bytes.lean and Model/Core.lean; that the outcomes are the
same is proved in Lemmas/CostBits.lean (`…_res`).

A step is one iteration of a loop, or one word or byte filled or copied; bytes of a temporary array are
counted like words.  `get_bits()` returns a copy (BigInteger.cpp:775-777), which is counted wherever it is
called.
-/
namespace BigIntegerCpp
open Counted
namespace Cost
variable [Cfg]

/-- NumericsHelpers.h:81-96 `dangerous_make_twos_complement`, one step per word. -/
def twosComplement : List Nat → Counted (List Nat)
  | [] => pure []
  | x :: xs => do
    tick 1
    let y := u32 (u32not x + 1)
    if y = 0 then do
      let r ← twosComplement xs
      pure (y :: r)
    else do
      tick xs.length
      pure (y :: xs.map u32not)

/-- The loops `while (len > 0 && value[len-1] == 0) len--`, one step per dropped word. -/
def trimLen (l : List Nat) : Counted Nat := do
  tick (l.length - BigIntegerCpp.trimLen l)
  pure (BigIntegerCpp.trimLen l)

/-- BigInteger.cpp:254-327 private `BigInteger(uint_array)`: the argument is copied (scope); the words kept
are copied once more into the object. -/
def ofTwos (value : List Nat) : Counted BigInt := scope value.length do
  let _ ← lift (sizeInt value.length)
  let isNegative := value ≠ [] ∧ (value.getLast?.getD 0) &&& 0x80000000 = 0x80000000
  let dwordCount ← trimLen value
  if dwordCount = 0 then lift (checked zeroInt)
  else if dwordCount = 1 then
    if i32 (value.headD 0) < 0 ∧ ¬isNegative then do
      tick 1
      lift (checked ⟨1, [value.headD 0]⟩)
    else if i32 (value.headD 0) = -2147483648 then lift (checked minInt)
    else lift (checked ⟨i32 (value.headD 0), []⟩)
  else if ¬isNegative then do
    tick dwordCount
    if dwordCount ≠ value.length then lift (checked ⟨1, value.take dwordCount⟩)
    else lift (checked ⟨1, value⟩)
  else do
    let value ← twosComplement value
    let len ← trimLen value
    if len = 1 ∧ i32 (value.headD 0) > 0 then
      if value.headD 0 = 1 then lift (checked minusOneInt)
      else if value.headD 0 = 2147483648 then lift (checked minInt)
      else lift (checked ⟨-1 * i32 (value.headD 0), []⟩)
    else do
      tick len
      if len ≠ value.length then lift (checked ⟨-1, value.take len⟩)
      else lift (checked ⟨-1, value⟩)

/-! ### Shifts -/

/-- BigInteger.cpp:918-930 `get_parts_for_bit_manipulation`: `get_bits()` is called four times on an object
with words, at most two of the copies being alive at the same time as the one kept (which the caller
holds); one word is pushed for an object without. -/
def partsForBits (a : BigInt) : Counted (List Nat) :=
  if a.bits = [] then do
    tick 1
    lift a.partsForBits
  else hold (2 * a.bits.length) do
    tick (4 * a.bits.length)
    lift a.partsForBits

/-- BigInteger.cpp:967-972, one step per word. -/
def shlLoop (smallShift : Nat) : List Nat → Nat → Counted (List Nat)
  | [], carry => pure [carry]
  | rot :: xs, carry => do
    tick 1
    let r ← shlLoop smallShift xs (rot >>> (32 - smallShift))
    pure ((u32 (rot <<< smallShift) ||| carry) :: r)

/-- BigInteger.cpp:956-975: from the words `xd` on; `zd` is filled with zeros (957). -/
def shlTail (negx : Bool) (digitShift smallShift : Nat) (xd : List Nat) : Counted BigInt :=
  scope (xd.length + digitShift + 1) do
  if smallShift = 0 then do
    tick xd.length
    ofMagnitude (List.replicate digitShift 0 ++ (xd ++ [0])) negx
  else do
    let z ← shlLoop smallShift xd 0
    ofMagnitude (List.replicate digitShift 0 ++ z) negx

/-- BigInteger.cpp:948-975: `<<=` for a positive shift count; `xd` lives until the end. -/
def shlPos (a : BigInt) (shift : Nat) : Counted BigInt :=
  hold (max 1 a.bits.length) do
  let digitShift := shift / 32
  let smallShift := shift - digitShift * 32
  let xd ← partsForBits a
  let xl ← lift (sizeInt xd.length)
  let _ ← lift (int (xl + digitShift + 1))
  shlTail (a.sign < 0) digitShift smallShift xd

/-- BigInteger.cpp:1086-1094, one step per word. -/
def shrLoop (neg : Bool) (smallShift : Nat) : List Nat → Counted (List Nat × Nat)
  | [] => pure ([], 0)
  | rot :: rest => do
    let (zs, carry) ← shrLoop neg smallShift rest
    tick 1
    let carryShift := 32 - smallShift
    let z := if neg ∧ rest = [] then (rot >>> smallShift) ||| u32 (0xFFFFFFFF <<< carryShift)
      else (rot >>> smallShift) ||| carry
    pure (z :: zs, u32 (rot <<< carryShift))

/-- BigInteger.cpp:1079-1098: from the words `xd` on; `zd` is filled with zeros (1078). -/
def shrTail (negx : Bool) (digitShift smallShift : Nat) (xd : List Nat) : Counted BigInt :=
  scope (xd.length - digitShift) do
  let zd ← (if smallShift = 0 then do
      tick (xd.length - digitShift)
      pure (xd.drop digitShift)
    else do
      let (z, _) ← shrLoop negx smallShift (xd.drop digitShift)
      pure z)
  if negx then do
    let zd ← twosComplement zd
    ofMagnitude zd negx
  else ofMagnitude zd negx

/-- BigInteger.cpp:1057-1100: `>>=` for a positive shift count; for negative numbers the words are copied
into `temp` and back (1070-1071). -/
def shrPos (a : BigInt) (shift : Nat) : Counted BigInt :=
  hold (max 1 a.bits.length) do
  let digitShift := shift / 32
  let smallShift := shift - digitShift * 32
  let xd ← partsForBits a
  let xl ← lift (sizeInt xd.length)
  let negx := decide (a.sign < 0)
  let total ← lift (if negx then int (32 * xl) else .ok 0)
  if negx ∧ (shift : Int) ≥ total then pure minusOneInt
  else if negx then do
    let xd ← scope xl (do
      tick xl
      twosComplement xd)
    shrTail negx digitShift smallShift xd
  else shrTail negx digitShift smallShift xd

/-- BigInteger.cpp:937-976 `operator<<=`; the negative counts go through `operator>>` (1041-1044), which
copies its left operand. -/
def shl (a : BigInt) (shift : Int) : Counted BigInt :=
  if shift = 0 then pure a
  else if shift = -2147483648 then do
    let x ← scope a.bits.length (shrPos a 2147483647)
    scope x.bits.length (shrPos x 1)
  else if shift < 0 then scope a.bits.length (shrPos a (-shift).toNat)
  else shlPos a shift.toNat

/-- BigInteger.cpp:1046-1101 `operator>>=`; only `INT_MIN` goes through `operator<<` (932-935). -/
def shr (a : BigInt) (shift : Int) : Counted BigInt :=
  if shift = 0 then pure a
  else if shift = -2147483648 then do
    let x ← scope a.bits.length (shlPos a 2147483647)
    scope x.bits.length (shlPos x 1)
  else if shift < 0 then shlPos a (-shift).toNat
  else shrPos a shift.toNat

/-! ### Bitwise operators -/

/-- BigInteger.cpp:978-1011 `to_uint32_array`: `dwords` is a copy (or one word), alive until the end;
`trimmed` is filled with zeros and then overwritten. -/
def toUInt32Array (a : BigInt) : Counted (List Nat) :=
  if a.bits.length = 0 ∧ a.sign = 0 then pure []
  else scope (max 1 a.bits.length) do
    let (dwords, high) ← (
      if a.bits.length = 0 then pure ([u32i a.sign], if a.sign < 0 then 4294967295 else 0)
      else if a.sign = -1 then do
        let d ← twosComplement a.bits
        pure (d, 4294967295)
      else pure (a.bits, 0))
    let _ ← lift (sizeInt dwords.length)
    let msb := BigInt.msbIndex high dwords
    tick (dwords.length - 1 - msb)
    let w ← lift (idx dwords msb)
    let needExtraByte := decide (w &&& 0x80000000 ≠ high &&& 0x80000000)
    tick (msb + 1 + (if needExtraByte then 1 else 0))
    tick (msb + 1)
    pure (dwords.take (msb + 1) ++ (if needExtraByte then [high] else []))

/-- BigInteger.cpp:1031-1035, 1126-1130, 1181-1185, one step per word. -/
def zipExt (f : Nat → Nat → Nat) (xe ye : Nat) : List Nat → List Nat → Counted (List Nat)
  | [], [] => pure []
  | x :: xs, [] => do
    tick 1
    let r ← zipExt f xe ye xs []
    pure (f x ye :: r)
  | [], y :: ys => do
    tick 1
    let r ← zipExt f xe ye [] ys
    pure (f xe y :: r)
  | x :: xs, y :: ys => do
    tick 1
    let r ← zipExt f xe ye xs ys
    pure (f x y :: r)

/-- The common tail of `^=`, `&=`, `|=` (BigInteger.cpp:1025-1037, 1120-1131, 1175-1186); `x`, `y` and `z`
live until the end, `z` is filled with zeros. -/
def bitwise (f : Nat → Nat → Nat) (a b : BigInt) : Counted BigInt := do
  let x ← toUInt32Array a
  hold x.length do
  let y ← toUInt32Array b
  hold y.length do
  let xe := if a.sign < 0 then 4294967295 else 0
  let ye := if b.sign < 0 then 4294967295 else 0
  scope (max x.length y.length) do
  let z ← zipExt f xe ye x y
  ofTwos z

/-- BigInteger.cpp:1018-1039 `operator^=`: the left operand is copied (1019). -/
def xor (a b : BigInt) : Counted BigInt := scope a.bits.length do
  if a.bits.length = 0 ∧ b.bits.length = 0 then lift (ofInt32 (i32 (u32i a.sign ^^^ u32i b.sign)))
  else bitwise (· ^^^ ·) a b

/-- BigInteger.cpp:1108-1133 `operator&=`: the left operand is copied (1109); the test in 1115 copies its
words, or else those of the right operand. -/
def and (a b : BigInt) : Counted BigInt := scope a.bits.length do
  let za ← lift a.isZero
  let zb ← lift (if za then .ok false else b.isZero)
  if za ∨ zb then pure zeroInt
  else do
  scope (max a.bits.length b.bits.length) (pure ())
  if a.bits.length = 0 ∧ b.bits.length = 0 then lift (ofInt32 (i32 (u32i a.sign &&& u32i b.sign)))
  else bitwise (· &&& ·) a b

/-- BigInteger.cpp:1160-1188 `operator|=`: the left operand is copied (1161); a zero left operand is
replaced by a copy of the right one (1163). -/
def or (a b : BigInt) : Counted BigInt := scope a.bits.length do
  let za ← lift a.isZero
  if za then do
    tick b.bits.length
    pure b
  else do
  let zb ← lift b.isZero
  if zb then pure a
  else if a.bits.length = 0 ∧ b.bits.length = 0 then lift (ofInt32 (i32 (u32i a.sign ||| u32i b.sign)))
  else bitwise (· ||| ·) a b

/-- BigInteger.cpp:623-625 `operator-`: the words are copied into the parameter and from there into the
object (87-91). -/
def neg (a : BigInt) : Counted BigInt := scope a.bits.length do
  tick a.bits.length
  lift a.neg

/-- BigInteger.cpp:1684-1687 `operator~`: `operator+` (654-657) copies its left operand. -/
def compl (a : BigInt) : Counted BigInt := scope a.bits.length do
  let r ← add a oneInt
  neg r

/-! ### Comparisons and queries -/

/-- BigInteger.cpp:750-756 `get_diff_length`, one step per pair of words looked at. -/
def diffLength (a b : List Nat) : Counted Nat := do
  tick (min a.length b.length - (BigIntegerCpp.BigInt.diffLength a b - 1))
  pure (BigInt.diffLength a b)

/-- BigInteger.cpp:723-748 `compare_to`. -/
def compareTo (a b : BigInt) : Counted Int := do
  lift (assertValid a)
  lift (assertValid b)
  if i32 (u32i a.sign ^^^ u32i b.sign) < 0 then pure (if a.sign < 0 then -1 else 1)
  else if a.bits = [] then
    if b.bits = [] then pure (if a.sign < b.sign then -1 else if a.sign > b.sign then 1 else 0)
    else lift (int (-b.sign))
  else do
    let cuThis ← lift (sizeInt a.bits.length)
    let cuOther ← lift (sizeInt b.bits.length)
    if b.bits = [] ∨ cuThis > cuOther then pure a.sign
    else if cuThis < cuOther then lift (int (-a.sign))
    else do
      let cuDiff ← diffLength a.bits b.bits
      if cuDiff = 0 then pure 0
      else do
        let x ← lift (idx a.bits (cuDiff - 1))
        let y ← lift (idx b.bits (cuDiff - 1))
        if x < y then lift (int (-a.sign)) else pure a.sign

/-- BigInteger.cpp:779-796 `equals`; comparing the arrays (785) looks at no word if their lengths differ,
and is charged as if it ran to the end otherwise. -/
def equals (a b : BigInt) : Counted Bool := do
  lift (assertValid a)
  lift (assertValid b)
  if a.sign ≠ b.sign then pure false
  else do
  tick (if a.bits.length = b.bits.length then a.bits.length else 0)
  if a.bits = b.bits then pure true
  else if a.bits = [] ∨ b.bits = [] then pure false
  else if a.bits.length ≠ b.bits.length then pure false
  else do
    let d ← diffLength a.bits b.bits
    pure (d = 0)

/-- BigInteger.cpp:1772-1779 `get_hash_code`, one step per word. -/
def hashCode (a : BigInt) : Counted Int := do
  tick a.bits.length
  pure a.hashCode

/-- BigInteger.cpp:357-376 `is_power_of_two`, one step per word below the top one, up to the first that is
not zero (charged as if it ran to the end). -/
def isPowerOfTwo (a : BigInt) : Counted Bool := do
  tick (a.bits.length - 1)
  lift a.isPowerOfTwo

/-- BigInteger.cpp:1213-1250 `get_bit_length`, likewise. -/
def bitLength (a : BigInt) : Counted Nat := do
  tick (a.bits.length - 1)
  lift a.bitLength

/-! ### Bytes -/

/-- BigInteger.cpp:135-141, one step per byte. -/
def packSign (value : List Nat) (step : Int) : Nat → Int → Int → Counted Int
  | 0, _, s => pure s
  | n + 1, cur, s => do
    tick 1
    let s ← lift (shl8 s)
    let b ← lift (idxI value cur)
    packSign value step n (cur + step) (i32 (u32i s ||| b))

/-- BigInteger.cpp:168-172, 179-183, 196-205, one step per byte. -/
def packWord (value : List Nat) (step : Int) : Nat → Int → Nat → Counted Nat
  | 0, _, w => pure w
  | n + 1, cur, w => do
    tick 1
    let b ← lift (idxI value cur)
    packWord value step n (cur + step) (u32 (w <<< 8) ||| b)

/-- BigInteger.cpp:166-186, one more step per word. -/
def packWords (value : List Nat) (step : Int) : Nat → Int → Counted (List Nat)
  | 0, _ => pure []
  | k + 1, cur => do
    tick 1
    let w ← packWord value step 4 cur 0
    let ws ← packWords value step k (cur + 4 * step - 8 * step)
    pure (w :: ws)

/-- BigInteger.cpp:93-252 `BigInteger(byte_array, isUnsigned, isBigEndian)`: the argument is copied; the
bytes left after leading zero bytes are copied again in the big-endian case (110); `val` is filled with
zeros (156) and its words are copied into the object (240, 243, 247). -/
def ofBytes (value : List Nat) (isUnsigned isBigEndian : Bool) : Counted BigInt := scope value.length do
  let byteCount ← lift (sizeInt value.length)
  let msb := if isBigEndian then value.headD 0 else value.getLast?.getD 0
  let isNegative := decide (byteCount > 0) && decide (msb &&& 0x80 ≠ 0) && !isUnsigned
  let (value, byteCount) ← (
    if byteCount > 0 ∧ msb = 0 then
      if isBigEndian then do
        let v := value.dropWhile (· = 0)
        tick (value.length - v.length)
        scope v.length (pure (v, v.length))
      else do
        let n ← trimLen value
        pure (value, n)
    else pure (value, byteCount))
  if byteCount = 0 then lift (checked zeroInt)
  else if byteCount ≤ 4 then do
    let s0 : Int := if isNegative then -1 else 0
    let s ← (if isBigEndian then packSign value 1 byteCount 0 s0
      else packSign value (-1) byteCount ((byteCount : Int) - 1) s0)
    tick 1
    let b : BigInt := if s < 0 ∧ !isNegative then ⟨1, [u32i s]⟩ else ⟨s, []⟩
    let b : BigInt := if b.sign = -2147483648 then minInt else b
    lift (checked b)
  else scope ((byteCount + 3) / 4) do
    let unaligned := byteCount % 4
    let full := byteCount / 4
    let words ← (if isBigEndian then packWords value 1 full ((byteCount : Int) - 4)
      else packWords value (-1) full 3)
    let top ← (if unaligned ≠ 0 then do
        let w0 := if isNegative then 4294967295 else 0
        let w ← (if isBigEndian then packWord value 1 unaligned 0 w0
          else packWord value (-1) unaligned ((byteCount : Int) - 1) w0)
        pure [w]
      else pure [])
    let val := words ++ top
    if isNegative then do
      let val ← twosComplement val
      let len ← trimLen val
      tick len
      if len = 1 ∧ val.headD 0 = 1 then pure minusOneInt
      else if len = 1 ∧ val.headD 0 = 2147483648 then pure minInt
      else if len = 1 ∧ i32 (val.headD 0) > 0 then lift (checked ⟨-1 * i32 (val.headD 0), []⟩)
      else if len ≠ val.length then lift (checked ⟨-1, val.take len⟩)
      else lift (checked ⟨-1, val⟩)
    else do
      tick val.length
      lift (checked ⟨1, val⟩)

/-- BigInteger.cpp:1356-1363, 1368-1380, 1387-1390, one step per byte. -/
def storeBytes (inc : Int) : List Nat → List Nat → Int → Counted (List Nat × Int)
  | [], dest, cur => pure (dest, cur)
  | b :: bs, dest, cur => do
    tick 1
    let dest ← lift (putI dest cur b)
    storeBytes inc bs dest (cur + inc)

/-- BigInteger.cpp:1295-1297, one step per word. -/
def firstNonZero : List Nat → Counted Nat
  | [] => lift (.ub .outOfBounds)
  | x :: xs =>
    if x = 0 then do
      tick 1
      let n ← firstNonZero xs
      pure (n + 1)
    else pure 0

/-- BigInteger.cpp:1257-1393 `to_byte_array(mode, …)`: `bits` is a copy of the words (1275); the result is
filled with zeros; one step per word more than per byte. -/
def toBytesMode (a : BigInt) (mode : GetBytesMode) (isUnsigned isBigEndian hasPtr : Bool) :
    Counted (List Nat × Option Nat) :=
  if a.sign = 0 then do
    tick 1
    lift (if hasPtr then .ok (if mode = .count then [] else [0], some 1) else .ub .nullDeref)
  else if isUnsigned ∧ a.sign < 0 then lift (.throw .runtimeError)
  else scope a.bits.length do
    let neg := decide (a.bits.length ≠ 0 ∧ a.sign = -1)
    let (highByte, highDword, nz) ← (
      if a.bits.length = 0 then pure ((if a.sign < 0 then 0xff else 0), u32i a.sign, 0)
      else if a.sign = -1 then do
        lift (cassert (a.bits.getLast?.getD 0 ≠ 0))
        let nz ← firstNonZero a.bits
        let h := u32not (a.bits.getLast?.getD 0)
        if a.bits.length - 1 = nz then do
          lift (cassert (h ≤ 4294967294))
          pure (0xff, u32 (h + 1), nz)
        else pure (0xff, h, nz)
      else do
        lift (cassert (a.sign = 1))
        pure (0, a.bits.getLast?.getD 0, 0))
    let msbIndex :=
      if byteOf highDword 3 ≠ highByte then 3
      else if byteOf highDword 2 ≠ highByte then 2
      else if byteOf highDword 1 ≠ highByte then 1
      else 0
    let msb := byteOf highDword msbIndex
    let needExtraByte := decide (msb &&& 0x80 ≠ highByte &&& 0x80) && !isUnsigned
    let length := msbIndex + 1 + (if needExtraByte then 1 else 0)
    let length ← lift (if a.bits.length ≠ 0 then sizeInt (4 * (a.bits.length - 1) + length) else .ok length)
    if mode = .count then
      lift (if hasPtr then .ok ([], some length) else .ub .nullDeref)
    else do
      tick length
      let destination := List.replicate length 0
      let curByte : Int := if isBigEndian then (length : Int) - 1 else 0
      let increment : Int := if isBigEndian then -1 else 1
      tick (a.bits.length - 1)
      let low := (BigInt.lowDwords neg nz 0 a.bits.dropLast).flatMap
        fun w => [byteOf w 0, byteOf w 1, byteOf w 2, byteOf w 3]
      let (destination, curByte) ← storeBytes increment low destination curByte
      let top := (List.range (msbIndex + 1)).map (byteOf highDword)
      let (destination, curByte) ← storeBytes increment top destination curByte
      let last := curByte - increment
      lift (cassert (isBigEndian ∨ (!needExtraByte ∧ last = (length : Int) - 1) ∨
        (needExtraByte ∧ last = (length : Int) - 2)))
      lift (cassert (!isBigEndian ∨ (!needExtraByte ∧ last = 0) ∨ (needExtraByte ∧ last = 1)))
      let (destination, _) ← storeBytes increment (if needExtraByte then [highByte] else [])
        destination curByte
      pure (destination, none)

/-- BigInteger.cpp:1252-1255 `to_byte_array(isUnsigned, isBigEndian)`. -/
def toBytes (a : BigInt) (isUnsigned isBigEndian : Bool) : Counted (List Nat) := do
  let (d, _) ← toBytesMode a .allocateArray isUnsigned isBigEndian true
  pure d

/-- BigInteger.cpp:1190-1194 `get_byte_count`. -/
def byteCount (a : BigInt) (isUnsigned : Bool) : Counted Nat := do
  let (_, n) ← toBytesMode a .count isUnsigned false true
  pure (n.getD 0)

end Cost
end BigIntegerCpp
