import Verif.Model.Python
/-
The two conversion functions of /repo/bindings/python/python-bindings.cpp with their parameters for the byte order and
the sign, which no caller in the bindings sets.
-/
namespace BigIntegerCpp
variable [Cfg]

/-- CPython `_PyLong_AsByteArray(v, bytes, n, little_endian, is_signed)`: the big-endian form is the
little-endian one reversed. -/
def asByteArrayIn (v : Int) (n : Nat) (isBigEndian isSigned : Bool) : Option (List Nat) :=
  (asByteArray v n isSigned).map fun bytes => if isBigEndian then bytes.reverse else bytes

/-- CPython `_PyLong_FromByteArray(bytes, n, little_endian, is_signed)`. -/
def fromByteArrayIn (bytes : List Nat) (isBigEndian isSigned : Bool) : Int :=
  let le := if isBigEndian then bytes.reverse else bytes
  if isSigned then signedVal 8 le else (digitsVal 256 le : Nat)

/-- python-bindings.cpp:43-49: the loop over the whole buffer; the first byte other than 0xff, else the initial value
of `msb`. -/
def findMsbFirst : List Nat → Nat → Nat
  | [], msb => msb
  | b :: bs, msb => if b ≠ 0xff then b else findMsbFirst bs msb

/-- python-bindings.cpp:16-68 `to_biginteger(value, is_bigendian)`.  The byte order is passed to CPython, not to the
constructors.  `n_bytes` goes through a `double` (line 24), exact below 2^53. -/
def toBigIntegerIn (v : PyInt) (isBigEndian : Bool) : Res BigInt :=
  if v.isZeroObject then .ok zeroInt
  else
    let isSigned : Bool := decide (v.value < 0)
    let n := (numBits v.value + 7) / 8 + (if isSigned then 1 else 0)
    match asByteArrayIn v.value n isBigEndian isSigned with
    | none => .throw .invalidArgument
    | some buffer =>
      if !isSigned then ofBytes buffer true false
      else do
        let msb ← (if isBigEndian then .ok (findMsbFirst buffer (buffer.length - 1))
          else findMsb buffer (buffer.length - 1) (buffer.length - 1))
        if msb &&& 0x80 ≠ 0xff &&& 0x80 then ofBytes buffer false false
        else if isBigEndian then do
          let rest ← slice buffer 1 (buffer.length - 1)
          ofBytes rest false false
        else ofBytes (buffer.take (buffer.length - 1)) false false

/-- python-bindings.cpp:70-78 `to_py_int(value, is_signed, is_bigendian)`. -/
def toPyIntIn (a : BigInt) (isSigned isBigEndian : Bool) : Res Int := do
  let data ← a.toBytes (!isSigned) isBigEndian
  .ok (fromByteArrayIn data isBigEndian isSigned)

end BigIntegerCpp
