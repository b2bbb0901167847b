import Verif.Model.Bytes
import Verif.Model.Text
import Verif.Model.Gcd
import Verif.Model.Memory
/-
The loops of src/BigInteger.cpp, include/NumericsHelpers.h and of the buffer code in
src/BigIntegerCalculator, index by index: every array has its size, every element access is
checked against it, and every variable of a loop runs as in the code.  The models in Core.lean,
Bits.lean, Bytes.lean, Text.lean, Pow.lean and Gcd.lean use recursion over lists for the same
loops; Props/Loops.lean proves that the two agree on all inputs.
-/
namespace BigIntegerCpp
namespace Loop
variable [Cfg]

/-- `for (int i = n - 1; i >= lo; i--) body`. -/
def forDownTo {σ : Type} (lo : Nat) (body : Nat → σ → Res σ) : Nat → σ → Res σ
  | 0, s => .ok s
  | n + 1, s => if n ≥ lo then do
      let s ← body n s
      forDownTo lo body n s
    else .ok s

/-- `while (len > 0 && value[len - 1] == 0) len--` (BigInteger.cpp:259, 302, 335,
PowMod.cpp:61-65).  In lines 113-117 and 212-215 the variable is one less. -/
def trim (value : List Nat) : Nat → Res Nat
  | 0 => .ok 0
  | len + 1 => do
    let x ← idx value len
    if x = 0 then trim value len else .ok (len + 1)

/-- NumericsHelpers.h:87-89: `for (; d[i - 1] == 0 && i < d.size(); i++) d[i] = ~d[i] + 1;` with
`n = d.size()`. -/
def twosCarry (n : Nat) (d : List Nat) (i : Nat) : Res (Nat × List Nat) := do
  let p ← idx d (i - 1)
  if p ≠ 0 then .ok (i, d)
  else if _h : i < n then do
    let x ← idx d i
    let d ← put d i (u32 (u32not x + 1))
    twosCarry n d (i + 1)
  else .ok (i, d)
termination_by n - i

/-- NumericsHelpers.h:81-96 `dangerous_make_twos_complement`. -/
def twos (d : List Nat) : Res (List Nat) :=
  if d.length > 0 then do
    let x ← idx d 0
    let d ← put d 0 (u32 (u32not x + 1))
    let (i, d) ← twosCarry d.length d 1
    let (_, d) ← forLoop d.length (fun i d => do
      let x ← idx d i
      put d i (u32not x)) i d
    .ok d
  else .ok d

/-- BigInteger.cpp:330-355 `BigInteger(uint_array, bool)`. -/
def ofMagnitude (value : List Nat) (negative : Bool) : Res BigInt := do
  let n ← sizeInt value.length
  let len ← trim value n
  let b ← (if len = 0 then .ok zeroInt
    else do
      let v0 ← (if len = 1 then idx value 0 else .ok 4294967295)
      if len = 1 ∧ v0 < 2147483648 then do
        let s : Int := if negative then -(i32 v0) else i32 v0
        .ok (if s = -2147483648 then minInt else ⟨s, []⟩)
      else .ok (⟨if negative then -1 else 1, value⟩ : BigInt))
  -- `while (!_bits.empty() && _bits[_bits.size() - 1] == 0) _bits.pop_back()`
  let k ← trim b.bits b.bits.length
  checked ⟨b.sign, b.bits.take k⟩

/-- BigInteger.cpp:254-327 private `BigInteger(uint_array)`. -/
def ofTwos (value : List Nat) : Res BigInt := do
  let n ← sizeInt value.length
  let isNegative ← (if n > 0 then do
      let w ← idx value (n - 1)
      .ok (decide (w &&& 0x80000000 = 0x80000000))
    else .ok false)
  let dwordCount ← trim value n
  if dwordCount = 0 then checked zeroInt
  else if dwordCount = 1 then do
    let v0 ← idx value 0
    if i32 v0 < 0 ∧ !isNegative then checked ⟨1, [v0]⟩
    else if i32 v0 = -2147483648 then checked minInt
    else checked ⟨i32 v0, []⟩
  else if !isNegative then
    if dwordCount ≠ n then do
      let bits ← slice value 0 dwordCount
      checked ⟨1, bits⟩
    else checked ⟨1, value⟩
  else do
    let value ← twos value
    let len ← trim value value.length
    let v0 ← (if len = 1 then idx value 0 else .ok 0)
    if len = 1 ∧ i32 v0 > 0 then
      if v0 = 1 then checked minusOneInt
      else if v0 = 2147483648 then checked minInt
      else checked ⟨-1 * i32 v0, []⟩
    else if len ≠ value.length then do
      let bits ← slice value 0 len
      checked ⟨-1, bits⟩
    else checked ⟨-1, value⟩

/-- BigInteger.cpp:750-756 `get_diff_length(rgu1, rgu2, cu)`. -/
def diffLength (a b : List Nat) : Nat → Res Nat
  | 0 => .ok 0
  | iv + 1 => do
    let x ← idx a iv
    let y ← idx b iv
    if x ≠ y then .ok (iv + 1) else diffLength a b iv

/-- BigInteger.cpp:723-748 `compare_to`. -/
def compareTo (a b : BigInt) : Res Int := do
  assertValid a
  assertValid b
  if i32 (u32i a.sign ^^^ u32i b.sign) < 0 then .ok (if a.sign < 0 then -1 else 1)
  else if a.bits = [] then
    if b.bits = [] then .ok (if a.sign < b.sign then -1 else if a.sign > b.sign then 1 else 0)
    else int (-b.sign)
  else do
    let cuThis ← sizeInt a.bits.length
    let cuOther ← sizeInt b.bits.length
    if b.bits = [] ∨ cuThis > cuOther then .ok a.sign
    else if cuThis < cuOther then int (-a.sign)
    else do
      let cuDiff ← diffLength a.bits b.bits cuThis
      if cuDiff = 0 then .ok 0
      else do
        let x ← idx a.bits (cuDiff - 1)
        let y ← idx b.bits (cuDiff - 1)
        if x < y then int (-a.sign) else .ok a.sign

/-- BigInteger.cpp:779-796 `equals`. -/
def equals (a b : BigInt) : Res Bool := do
  assertValid a
  assertValid b
  if a.sign ≠ b.sign then .ok false
  else if a.bits = b.bits then .ok true
  else if a.bits = [] ∨ b.bits = [] then .ok false
  else if a.bits.length ≠ b.bits.length then .ok false
  else do
    let cuDiff ← diffLength a.bits b.bits a.bits.length
    .ok (cuDiff = 0)

/-- BigInteger.cpp:370-373 and 1240-1247: whether `a[iu - 1], ..., a[0]` are all zero, from the
top. -/
def zeroBelow (a : List Nat) : Nat → Res Bool
  | 0 => .ok true
  | iu + 1 => do
    let x ← idx a iu
    if x ≠ 0 then .ok false else zeroBelow a iu

/-- BigInteger.cpp:357-376 `is_power_of_two`. -/
def isPowerOfTwo (a : BigInt) : Res Bool := do
  assertValid a
  if a.bits.length = 0 then do
    let s ← int (a.sign - 1)
    .ok (u32i a.sign &&& u32i s = 0 ∧ a.sign ≠ 0)
  else if a.sign ≠ 1 then .ok false
  else do
    let iu := a.bits.length - 1
    let top ← idx a.bits iu
    if top &&& u32sub top 1 ≠ 0 then .ok false
    else zeroBelow a.bits iu

/-- BigInteger.cpp:1772-1779 `get_hash_code`. -/
def hashCode (a : BigInt) : Res Int :=
  if a.bits = [] then .ok a.sign
  else forDown (fun iv hash => do
    let w ← idx a.bits iv
    .ok (BigInt.combineHash hash (i32 w))) a.bits.length a.sign

/-- BigInteger.cpp:948-975: `<<=` for a positive shift count. -/
def shlPos (a : BigInt) (shift : Nat) : Res BigInt := do
  let digitShift := shift / 32
  let smallShift := shift - digitShift * 32
  let xd ← a.partsForBits
  let xl ← sizeInt xd.length
  let zl ← int (xl + digitShift + 1)
  let zd := List.replicate zl.toNat 0
  let zd ← (if smallShift = 0 then do
      let (_, zd) ← forLoop xl (fun i zd => do
        let x ← idx xd i
        put zd (i + digitShift) x) 0 zd
      .ok zd
    else do
      let carryShift := 32 - smallShift
      let (i, carry, zd) ← forLoop xl (fun i (carry, zd) => do
        let rot ← idx xd i
        let zd ← put zd (i + digitShift) (u32 (rot <<< smallShift) ||| carry)
        .ok (rot >>> carryShift, zd)) 0 (0, zd)
      put zd (i + digitShift) carry)
  ofMagnitude zd (a.sign < 0)

/-- BigInteger.cpp:1057-1100: `>>=` for a positive shift count. -/
def shrPos (a : BigInt) (shift : Nat) : Res BigInt := do
  let digitShift := shift / 32
  let smallShift := shift - digitShift * 32
  let xd ← a.partsForBits
  let xl ← sizeInt xd.length
  let negx := decide (a.sign < 0)
  let total ← (if negx then int (32 * xl) else .ok 0)
  if negx ∧ (shift : Int) ≥ total then .ok minusOneInt
  else do
    let xd ← (if negx then twos xd else .ok xd)
    let zl := xl - digitShift
    let zd := List.replicate zl 0
    let zd ← (if smallShift = 0 then
        forDownTo digitShift (fun i zd => do
          let x ← idx xd i
          put zd (i - digitShift) x) xl zd
      else do
        let carryShift := 32 - smallShift
        let (_, zd) ← forDownTo digitShift (fun i (carry, zd) => do
          let rot ← idx xd i
          let zd ← (if negx ∧ i = xl - 1 then
              put zd (i - digitShift) ((rot >>> smallShift) ||| u32 (0xFFFFFFFF <<< carryShift))
            else put zd (i - digitShift) ((rot >>> smallShift) ||| carry))
          .ok (u32 (rot <<< carryShift), zd)) xl (0, zd)
        .ok zd)
    let zd ← (if negx then twos zd else .ok zd)
    ofMagnitude zd negx

/-- BigInteger.cpp:937-976 `operator<<=`. -/
def shl (a : BigInt) (shift : Int) : Res BigInt :=
  if shift = 0 then .ok a
  else if shift = -2147483648 then do
    let x ← shrPos a 2147483647
    shrPos x 1
  else if shift < 0 then shrPos a (-shift).toNat
  else shlPos a shift.toNat

/-- BigInteger.cpp:1046-1101 `operator>>=`. -/
def shr (a : BigInt) (shift : Int) : Res BigInt :=
  if shift = 0 then .ok a
  else if shift = -2147483648 then do
    let x ← shlPos a 2147483647
    shlPos x 1
  else if shift < 0 then shlPos a (-shift).toNat
  else shrPos a shift.toNat

/-- BigInteger.cpp:998-1001: `for (msb = size - 1; msb > 0; msb--) if (dwords[msb] != highDWord)
break;`. -/
def msb (high : Nat) (dwords : List Nat) : Nat → Res Nat
  | 0 => .ok 0
  | m + 1 => do
    let x ← idx dwords (m + 1)
    if x ≠ high then .ok (m + 1) else msb high dwords m

/-- `std::copy(from.begin(), from.begin() + n, to.begin())`. -/
def copy (source : List Nat) (n : Nat) (target : List Nat) : Res (List Nat) := do
  let (_, t) ← forLoop n (fun i t => do
    let x ← idx source i
    put t i x) 0 target
  .ok t

/-- BigInteger.cpp:978-1011 `to_uint32_array`. -/
def toUInt32Array (a : BigInt) : Res (List Nat) :=
  if a.bits.length = 0 ∧ a.sign = 0 then .ok []
  else do
    let (dwords, high) ← (
      if a.bits.length = 0 then .ok ([u32i a.sign], if a.sign < 0 then 4294967295 else 0)
      else if a.sign = -1 then do
        let dwords ← twos a.bits
        .ok (dwords, 4294967295)
      else .ok (a.bits, 0))
    let n ← sizeInt dwords.length
    let msb ← msb high dwords (n - 1)
    let w ← idx dwords msb
    let needExtraByte := decide (w &&& 0x80000000 ≠ high &&& 0x80000000)
    let trimmed := List.replicate (msb + 1 + (if needExtraByte then 1 else 0)) 0
    let trimmed ← copy dwords (msb + 1) trimmed
    if needExtraByte then put trimmed (trimmed.length - 1) high else .ok trimmed

/-- BigInteger.cpp:1025-1037, 1120-1131, 1175-1186: the common part of `^=`, `&=`, `|=`. -/
def bitwise (f : Nat → Nat → Nat) (a b : BigInt) : Res BigInt := do
  let x ← toUInt32Array a
  let y ← toUInt32Array b
  let z := List.replicate (Nat.max x.length y.length) 0
  let xe := if a.sign < 0 then 4294967295 else 0
  let ye := if b.sign < 0 then 4294967295 else 0
  let (_, z) ← forLoop z.length (fun i z => do
    let xu ← (if i < x.length then idx x i else .ok xe)
    let yu ← (if i < y.length then idx y i else .ok ye)
    put z i (f xu yu)) 0 z
  ofTwos z

/-- BigInteger.cpp:1018-1039 `operator^=`. -/
def xor (a b : BigInt) : Res BigInt :=
  if a.bits.length = 0 ∧ b.bits.length = 0 then ofInt32 (i32 (u32i a.sign ^^^ u32i b.sign))
  else bitwise (· ^^^ ·) a b

/-- BigInteger.cpp:1108-1133 `operator&=`. -/
def and (a b : BigInt) : Res BigInt := do
  let za ← a.isZero
  let zb ← (if za then .ok false else b.isZero)
  if za ∨ zb then .ok zeroInt
  else if a.bits.length = 0 ∧ b.bits.length = 0 then ofInt32 (i32 (u32i a.sign &&& u32i b.sign))
  else bitwise (· &&& ·) a b

/-- BigInteger.cpp:1160-1188 `operator|=`. -/
def or (a b : BigInt) : Res BigInt := do
  let za ← a.isZero
  if za then .ok b else do
  let zb ← b.isZero
  if zb then .ok a
  else if a.bits.length = 0 ∧ b.bits.length = 0 then ofInt32 (i32 (u32i a.sign ||| u32i b.sign))
  else bitwise (· ||| ·) a b

/-- BigInteger.cpp:1213-1250 `get_bit_length`. -/
def bitLength (a : BigInt) : Res Nat := do
  assertValid a
  let (len, high) ← (if a.bits = [] then
      if a.sign < 0 then do
        let m ← int (-a.sign)
        .ok (1, u32i m)
      else .ok (1, u32i a.sign)
    else do
      let n ← sizeInt a.bits.length
      let w ← idx a.bits (n - 1)
      .ok (n, w))
  let lz ← BigInt.leadingZerosCount high
  let bitLength ← long ((len : Int) * 32 - lz)
  if a.sign ≥ 0 then .ok (u64i bitLength)
  else if high &&& u32sub high 1 ≠ 0 then .ok (u64i bitLength)
  else do
    let zero ← zeroBelow a.bits (len - 1)
    if zero then .ok (u64i (bitLength - 1)) else .ok (u64i bitLength)

/-- BigInteger.cpp:856-872: conversion to base 10^9 in the array `rguDst` of `cuMax` words;
returns `cuDst` and the array. -/
def toBase (cuMax : Nat) (bits : List Nat) : Res (Nat × List Nat) :=
  forDown (fun iuSrc (cuDst, dst) => do
    let uCarry ← idx bits iuSrc
    let (_, uCarry, dst) ← forLoop cuDst (fun iuDst (uCarry, dst) => do
      let d ← idx dst iuDst
      cassert (d < 1000000000)
      let uuRes := u64 (d <<< 32) ||| uCarry
      let dst ← put dst iuDst (u32 (uuRes % 1000000000))
      .ok (u32 (uuRes / 1000000000), dst)) 0 (uCarry, dst)
    if uCarry ≠ 0 then do
      let dst ← put dst cuDst (uCarry % 1000000000)
      let cuDst := cuDst + 1
      let uCarry := uCarry / 1000000000
      if uCarry ≠ 0 then do
        let dst ← put dst cuDst uCarry
        .ok (cuDst + 1, dst)
      else .ok (cuDst, dst)
    else .ok (cuDst, dst)) bits.length (0, List.replicate cuMax 0)

/-- The array `rgch` with its write position `ichDst`; `none` is a character not yet written. -/
abbrev Chars := List (Option Char) × Int

/-- `rgch[--ichDst] = ch`. -/
def putChar (st : Chars) (ch : Char) : Res Chars := do
  let ichDst := st.2 - 1
  let rgch ← putI st.1 ichDst (some ch)
  .ok (rgch, ichDst)

/-- BigInteger.cpp:896-899: `n` more digits of a limb. -/
def putNine : Nat → Nat → Chars → Res Chars
  | 0, _, st => .ok st
  | n + 1, u, st => do
    let st ← putChar st (digitChar (u % 10))
    putNine n (u / 10) st

/-- BigInteger.cpp:902-905. -/
def putTop (u : Nat) (st : Chars) : Res Chars :=
  if _h : u = 0 then .ok st
  else do
    let st ← putChar st (digitChar (u % 10))
    putTop (u / 10) st
termination_by u

/-- Reading characters that must all have been written; a character that has not counts as
out of bounds. -/
def written : List (Option Char) → Res (List Char)
  | [] => .ok []
  | none :: _ => .ub .outOfBounds
  | some c :: cs => do
    let r ← written cs
    .ok (c :: r)

/-- BigInteger.cpp:833-916 `to_string`. -/
def toStr (a : BigInt) : Res (List Char) :=
  if a.bits.length = 0 then .ok (toString a.sign).toList
  else do
    let cuSrc ← sizeInt a.bits.length
    if cuSrc > 214748364 then .throw .overflowError else do
    let cuMax := cuSrc * 10 / 9 + 2
    let (cuDst, dst) ← toBase cuMax a.bits
    if cuDst > 238609294 then .throw .overflowError else do
    let cchMax := cuDst * 9
    if cchMax = 2147483647 then .throw .overflowError else do
    let rgchBufSize := cchMax + 1
    let st : Chars := (List.replicate rgchBufSize none, cchMax)
    let (_, st) ← forLoop (cuDst - 1) (fun iuDst st => do
      let uDig ← idx dst iuDst
      cassert (uDig < 1000000000)
      putNine 9 uDig st) 0 st
    let uDig ← idxI dst ((cuDst : Int) - 1)
    let st ← putTop uDig st
    let st ← (if a.sign < 0 then putChar st '-' else .ok st)
    let s ← (if st.2 < 0 then .ub .outOfBounds else slice st.1 st.2.toNat (cchMax - st.2.toNat))
    written s

/-- BigInteger.cpp:818-826: the loop of `parse` from position `i` on. -/
def parseLoop (s : List Char) (i : Nat) (b : BigInt) : Res BigInt :=
  if _h : i ≠ s.length ∧ i < s.length then do
    let ch ← idx s i
    if '0' ≤ ch ∧ ch ≤ '9' then do
      let ten ← ofInt32 10
      let b ← b.mul ten
      let d ← ofUInt32 (ch.toNat - 48)
      let b ← b.add d
      parseLoop s (i + 1) b
    else .ok b
  else if i = s.length then .ok b else .ub .outOfBounds
termination_by s.length - i

/-- BigInteger.cpp:807-831 `parse`.  `s[0]` of an empty `std::string` is the null character. -/
def parse (s : List Char) : Res BigInt := do
  let s0 := s.headD (Char.ofNat 0)
  let (isNegative, startIdx) := if s0 = '-' then (true, 1) else if s0 = '+' then (false, 1) else (false, 0)
  let b ← parseLoop s startIdx zeroInt
  if isNegative then b.neg else .ok b

/-- BigInteger.cpp:104-108: `while (offset < byteCount && value[offset] == 0) offset++`. -/
def skipZeros (value : List Nat) (byteCount offset : Nat) : Res Nat :=
  if _h : offset < byteCount then do
    let x ← idx value offset
    if x = 0 then skipZeros value byteCount (offset + 1) else .ok offset
  else .ok offset
termination_by byteCount - offset

/-- BigInteger.cpp:169-171, 180-182, 197-198, 202-203: `val[curDword] = (val[curDword] << 8) |
value[curByte]`. -/
def packByte (value : List Nat) (curDword : Nat) (curByte : Int) (val : List Nat) : Res (List Nat) := do
  let b ← idxI value curByte
  let w ← idx val curDword
  put val curDword (u32 (w <<< 8) ||| b)

/-- BigInteger.cpp:166-175 (`step = 1`) and 177-186 (`step = -1`): the `n` complete words;
returns `curDword` and the array. -/
def packWords (value : List Nat) (step : Int) (n : Nat) (curByte : Int) (val : List Nat) : Res (Nat × List Nat) := do
  let (curDword, _, val) ← forLoop n (fun curDword (curByte, val) => do
    let (_, curByte, val) ← forLoop 4 (fun _ (curByte, val) => do
      let val ← packByte value curDword curByte val
      .ok (curByte + step, val)) 0 (curByte, val)
    .ok (curByte - 8 * step, val)) 0 (curByte, val)
  .ok (curDword, val)

/-- BigInteger.cpp:93-252 `BigInteger(byte_array, isUnsigned, isBigEndian)`. -/
def ofBytes (value : List Nat) (isUnsigned isBigEndian : Bool) : Res BigInt := do
  let byteCount ← sizeInt value.length
  let (isNegative, value, byteCount) ← (if byteCount > 0 then do
      let msb ← idx value (if isBigEndian then 0 else byteCount - 1)
      let isNegative := decide (msb &&& 0x80 ≠ 0) && !isUnsigned
      if msb = 0 then
        if isBigEndian then do
          let offset ← skipZeros value byteCount 1
          let value ← slice value offset (value.length - offset)
          .ok (isNegative, value, value.length)
        else do
          let byteCount ← trim value (byteCount - 1)
          .ok (isNegative, value, byteCount)
      else .ok (isNegative, value, byteCount)
    else .ok (false, value, byteCount))
  if byteCount = 0 then checked zeroInt
  else if byteCount ≤ 4 then do
    let s0 : Int := if isNegative then -1 else 0
    let body := fun i s => do
      let s ← shl8 s
      let b ← idx value i
      .ok (i32 (u32i s ||| b))
    let s ← (if isBigEndian then do
        let (_, s) ← forLoop byteCount body 0 s0
        .ok s
      else forDown body byteCount s0)
    let b : BigInt := if s < 0 ∧ !isNegative then ⟨1, [u32i s]⟩ else ⟨s, []⟩
    let b : BigInt := if b.sign = -2147483648 then minInt else b
    checked b
  else do
    let unalignedBytes := byteCount % 4
    let dwordCount := byteCount / 4 + (if unalignedBytes = 0 then 0 else 1)
    let val := List.replicate dwordCount 0
    let full := dwordCount - (if unalignedBytes = 0 then 0 else 1)
    let (curDword, val) ← (if isBigEndian then packWords value 1 full ((byteCount : Int) - 4) val
      else packWords value (-1) full 3 val)
    let val ← (if unalignedBytes ≠ 0 then do
        let val ← (if isNegative then put val (dwordCount - 1) 4294967295 else .ok val)
        if isBigEndian then do
          let (_, val) ← forLoop unalignedBytes (fun curByte val => packByte value curDword curByte val) 0 val
          .ok val
        else forDownTo (byteCount - unalignedBytes) (fun curByte val => packByte value curDword curByte val) byteCount val
      else .ok val)
    if isNegative then do
      let val ← twos val
      let len ← trim val val.length
      let v0 ← (if len = 1 then idx val 0 else .ok 0)
      if len = 1 ∧ v0 = 1 then .ok minusOneInt
      else if len = 1 ∧ v0 = 2147483648 then .ok minInt
      else if len = 1 ∧ i32 v0 > 0 then checked ⟨-1 * i32 v0, []⟩
      else if len ≠ val.length then do
        let bits ← slice val 0 len
        checked ⟨-1, bits⟩
      else checked ⟨-1, val⟩
    else checked ⟨1, val⟩

/-- BigInteger.cpp:1295-1297: `while (bits[nonZeroDwordIndex] == 0U) nonZeroDwordIndex++`. -/
def firstNonZero (bits : List Nat) (i : Nat) : Res Nat :=
  if _h : i < bits.length then do
    let x ← idx bits i
    if x = 0 then firstNonZero bits (i + 1) else .ok i
  else .ub .outOfBounds
termination_by bits.length - i

/-- BigInteger.cpp:1344-1364: the bytes of the words below the top one; returns `destination` and
`curByte`. -/
def lowBytes (bits : List Nat) (negative : Bool) (nonZero : Nat) (increment : Int) (destination : List Nat)
    (curByte : Int) : Res (List Nat × Int) := do
  let (_, destination, curByte) ← forLoop (bits.length - 1) (fun i (destination, curByte) => do
    let dword ← idx bits i
    let dword := if negative then
        (if i ≤ nonZero then u32 (u32not dword + 1) else u32not dword)
      else dword
    let destination ← putI destination curByte (byteOf dword 0)
    let curByte := curByte + increment
    let destination ← putI destination curByte (byteOf dword 1)
    let curByte := curByte + increment
    let destination ← putI destination curByte (byteOf dword 2)
    let curByte := curByte + increment
    let destination ← putI destination curByte (byteOf dword 3)
    .ok (destination, curByte + increment)) 0 (destination, curByte)
  .ok (destination, curByte)

/-- BigInteger.cpp:1367-1380: the bytes of the top word; `curByte` is left at the last one. -/
def topBytes (highDword msbIndex : Nat) (increment : Int) (destination : List Nat) (curByte : Int) :
    Res (List Nat × Int) := do
  let destination ← putI destination curByte (byteOf highDword 0)
  if msbIndex ≠ 0 then do
    let curByte := curByte + increment
    let destination ← putI destination curByte (byteOf highDword 1)
    if msbIndex ≠ 1 then do
      let curByte := curByte + increment
      let destination ← putI destination curByte (byteOf highDword 2)
      if msbIndex ≠ 2 then do
        let curByte := curByte + increment
        let destination ← putI destination curByte (byteOf highDword 3)
        .ok (destination, curByte)
      else .ok (destination, curByte)
    else .ok (destination, curByte)
  else .ok (destination, curByte)

/-- BigInteger.cpp:1257-1393 `to_byte_array(mode, isUnsigned, isBigEndian, bytesWritten)`. -/
def toBytesMode (a : BigInt) (mode : GetBytesMode) (isUnsigned isBigEndian hasPtr : Bool) :
    Res (List Nat × Option Nat) :=
  if a.sign = 0 then
    if hasPtr then .ok (if mode = .count then [] else [0], some 1) else .ub .nullDeref
  else if isUnsigned ∧ a.sign < 0 then .throw .runtimeError
  else do
    let bits := a.bits
    let (highByte, highDword, nz) ← (
      if bits.length = 0 then .ok ((if a.sign < 0 then 0xff else 0), u32i a.sign, 0)
      else if a.sign = -1 then do
        let top ← idx bits (bits.length - 1)
        cassert (top ≠ 0)
        let nz ← firstNonZero bits 0
        let h := u32not top
        if bits.length - 1 = nz then do
          cassert (h ≤ 4294967294)
          .ok (0xff, u32 (h + 1), nz)
        else .ok (0xff, h, nz)
      else do
        cassert (a.sign = 1)
        let top ← idx bits (bits.length - 1)
        .ok (0, top, 0))
    let msbIndex :=
      if byteOf highDword 3 ≠ highByte then 3
      else if byteOf highDword 2 ≠ highByte then 2
      else if byteOf highDword 1 ≠ highByte then 1
      else 0
    let msb := byteOf highDword msbIndex
    let needExtraByte := decide (msb &&& 0x80 ≠ highByte &&& 0x80) && !isUnsigned
    let length := msbIndex + 1 + (if needExtraByte then 1 else 0)
    let length ← (if bits.length ≠ 0 then sizeInt (4 * (bits.length - 1) + length) else .ok length)
    if mode = .count then
      if hasPtr then .ok ([], some length) else .ub .nullDeref
    else do
      let destination := List.replicate length 0
      let curByte : Int := if isBigEndian then (length : Int) - 1 else 0
      let increment : Int := if isBigEndian then -1 else 1
      let (destination, curByte) ← (if bits.length ≠ 0 then
          lowBytes bits (a.sign = -1) nz increment destination curByte
        else .ok (destination, curByte))
      let (destination, curByte) ← topBytes highDword msbIndex increment destination curByte
      cassert (isBigEndian ∨ (!needExtraByte ∧ curByte = (length : Int) - 1) ∨
        (needExtraByte ∧ curByte = (length : Int) - 2))
      cassert (!isBigEndian ∨ (!needExtraByte ∧ curByte = 0) ∨ (needExtraByte ∧ curByte = 1))
      let destination ← (if needExtraByte then putI destination (curByte + increment) highByte
        else .ok destination)
      .ok (destination, none)

/-- PowMod.cpp:61-65 `actual_length(value, length)`. -/
def actualLength (value : List Nat) (length : Nat) : Res Nat := trim value length

/-- GcdInv.cpp:231-244: the loop of `lehmer_core` with its local copies of the digits. -/
def lehmerLoop (a b c d : Int) (length : Nat) (x y : List Nat) : Res Unit := do
  let _ ← forLoop length (fun i (x, y, xCarry, yCarry) => do
    let xi ← idx x i
    let yi ← idx y i
    let p ← long (a * xi)
    let q ← long (b * yi)
    let e ← long (p - q)
    let xDigit ← long (e + xCarry)
    let p ← long (d * yi)
    let q ← long (c * xi)
    let e ← long (p - q)
    let yDigit ← long (e + yCarry)
    let x ← put x i (u32i xDigit)
    let y ← put y i (u32i yDigit)
    .ok (x, y, xDigit / 4294967296, yDigit / 4294967296)) 0 (x, y, (0 : Int), (0 : Int))
  .ok ()

end Loop
end BigIntegerCpp
