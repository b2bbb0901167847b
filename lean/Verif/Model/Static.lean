import Verif.Model.Bytes
/-
The four constants of src/BigInteger.cpp:14-17 as variables: they are initialised at run time, when
the initialisers of that file are executed, and a global object of another file may be constructed
before that.  Everywhere else in the model they have their final values (`minInt`, `oneInt`,
`zeroInt`, `minusOneInt`).
-/
namespace BigIntegerCpp
variable [Cfg]

/-- BigInteger.h:190-193: the static members. -/
structure Consts where
  minInt : BigInt
  one : BigInt
  zero : BigInt
  minusOne : BigInt
  deriving DecidableEq, Repr

/-- Before their initialisers have run the static members are filled with zero bytes
(zero-initialisation).  Simplification: the C++ standard leaves the use of a `std::vector` before its
constructor has run undefined; with libstdc++, libc++ and the Microsoft library a vector of zero bytes
behaves as an empty one, which is what is modelled. -/
def Consts.blank : Consts := ⟨⟨0, []⟩, ⟨0, []⟩, ⟨0, []⟩, ⟨0, []⟩⟩

/-- BigInteger.cpp:25-33 `BigInteger(int32_t)`. -/
def Consts.ofInt32 (k : Consts) (value : Int) : Res BigInt :=
  if value = -2147483648 then checked k.minInt else checked ⟨value, []⟩

/-- BigInteger.cpp:46-70 `BigInteger(int64_t)`. -/
def Consts.ofInt64 (k : Consts) (value : Int) : Res BigInt :=
  if -2147483648 < value ∧ value ≤ 2147483647 then checked ⟨value, []⟩
  else if value = -2147483648 then checked k.minInt
  else do
    let (x, sign) ← if value < 0 then do
        let m ← long (-value)
        .ok (u64i m, (-1 : Int))
      else .ok (u64i value, 1)
    if x ≤ 4294967295 then checked ⟨sign, [u32 x]⟩
    else checked ⟨sign, [u32 x, u32 (x >>> 32)]⟩

/-- BigInteger.cpp:330-355 `BigInteger(uint_array, bool)`. -/
def Consts.ofMagnitude (k : Consts) (value : List Nat) (negative : Bool) : Res BigInt := do
  let _ ← sizeInt value.length
  let len := trimLen value
  let b : BigInt :=
    if len = 0 then k.zero
    else if len = 1 ∧ value.headD 0 < 2147483648 then
      let s : Int := if negative then -(i32 (value.headD 0)) else i32 (value.headD 0)
      if s = -2147483648 then k.minInt else ⟨s, []⟩
    else ⟨if negative then -1 else 1, value⟩
  checked ⟨b.sign, b.bits.take (trimLen b.bits)⟩

/-- BigInteger.cpp:93-252 `BigInteger(byte_array, isUnsigned, isBigEndian)`, as `ofBytes`. -/
def Consts.ofBytes (k : Consts) (value : List Nat) (isUnsigned isBigEndian : Bool) : Res BigInt := do
  let byteCount ← sizeInt value.length
  let msb := if isBigEndian then value.headD 0 else value.getLast?.getD 0
  let isNegative := decide (byteCount > 0) && decide (msb &&& 0x80 ≠ 0) && !isUnsigned
  let (value, byteCount) :=
    if byteCount > 0 ∧ msb = 0 then
      if isBigEndian then
        let v := value.dropWhile (· = 0)
        (v, v.length)
      else (value, trimLen value)
    else (value, byteCount)
  if byteCount = 0 then checked zeroInt
  else if byteCount ≤ 4 then do
    let s0 : Int := if isNegative then -1 else 0
    let s ← (if isBigEndian then packSign value 1 byteCount 0 s0
      else packSign value (-1) byteCount ((byteCount : Int) - 1) s0)
    let b : BigInt := if s < 0 ∧ !isNegative then ⟨1, [u32i s]⟩ else ⟨s, []⟩
    let b : BigInt := if b.sign = -2147483648 then k.minInt else b
    checked b
  else do
    let unaligned := byteCount % 4
    let full := byteCount / 4
    let words ← (if isBigEndian then packWords value 1 full ((byteCount : Int) - 4)
      else packWords value (-1) full 3)
    let top ← (if unaligned ≠ 0 then do
        let w0 := if isNegative then 4294967295 else 0
        let w ← (if isBigEndian then packWord value 1 unaligned 0 w0
          else packWord value (-1) unaligned ((byteCount : Int) - 1) w0)
        .ok [w]
      else .ok [])
    let val := words ++ top
    if isNegative then
      let val := twosComplement val
      let len := trimLen val
      if len = 1 ∧ val.headD 0 = 1 then .ok k.minusOne
      else if len = 1 ∧ val.headD 0 = 2147483648 then .ok k.minInt
      else if len = 1 ∧ i32 (val.headD 0) > 0 then checked ⟨-1 * i32 (val.headD 0), []⟩
      else if len ≠ val.length then checked ⟨-1, val.take len⟩
      else checked ⟨-1, val⟩
    else checked ⟨1, val⟩

/-- BigInteger.cpp:14-17: the initialisers, in this order. -/
def initConsts : Res Consts := do
  let k := Consts.blank
  let b ← ofParts (-1) [2147483648]
  let k := { k with minInt := b }
  let b ← k.ofInt32 1
  let k := { k with one := b }
  let b ← k.ofInt32 0
  let k := { k with zero := b }
  let b ← k.ofInt32 (-1)
  let k := { k with minusOne := b }
  .ok k

end BigIntegerCpp
