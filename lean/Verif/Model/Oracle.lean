import Verif.Model.Bytes
import Verif.Model.Convert
import Verif.Model.Gcd
import Verif.Model.Pow
import Verif.Model.Bits
/-
The reference implementation the unit tests compare the library with: tests/MyBigInt.cpp and
tests/BitArray.cpp, arithmetic on little-endian two's-complement byte arrays; and the dispatch of
tests/stack_calc.cpp to the library.  A byte is a `Nat` below
256.  Simplified throughout: `int` sizes and counters are unbounded (arrays below 2^28 bytes).  Not
modelled: the logarithms (`uLog`, `uLog10`, `bLog`), `ApproximateBigInteger` and the generation of
random arrays.
-/
namespace BigIntegerCpp
variable [Cfg]
namespace Oracle

/-- `bytes[bytes.size() - 1]`; of an empty array a read out of bounds. -/
def last (bytes : List Nat) : Res Nat :=
  match bytes.getLast? with
  | some b => .ok b
  | none => .ub .outOfBounds

/-- MyBigInt.cpp:615-620 `IsZero`. -/
def isZero (bytes : List Nat) : Bool := bytes.all (· == 0)

/-- MyBigInt.cpp:428-449 the loops of `Negate`: all bits inverted, then one added; `first` is `i == 0`.
(The two loops are one here: a byte is inverted when it is reached.) -/
def negLoop : Bool → Bool → List Nat → List Nat
  | _, _, [] => []
  | first, carry, b :: bs =>
    let temp := (if first then 1 else 0) + (b ^^^ 0xFF) + (if carry then 1 else 0)
    if temp > 0xFF then (temp - 256) :: negLoop false true bs else temp :: negLoop false false bs

/-- MyBigInt.cpp:423-463 `Negate`; the last part makes room for minus the least number. -/
def negate (bytes : List Nat) : Res (List Nat) := do
  let bnew := negLoop true false bytes
  let top ← last bnew
  let bsame := decide (top &&& 0x80 ≠ 0) && decide (top &&& 0x7f = 0) && bnew.dropLast.all (· == 0)
  .ok (if bsame then bnew ++ [0] else bnew)

/-- MyBigInt.cpp:465-493 `Trim`, from the most significant byte. -/
def trimRev : List Nat → List Nat
  | t :: s :: rest =>
    if t &&& 0x80 = 0 then
      if t = 0 ∧ s &&& 0x80 = 0 then trimRev (s :: rest) else t :: s :: rest
    else if t = 0xFF ∧ s &&& 0x80 ≠ 0 then trimRev (s :: rest) else t :: s :: rest
  | bs => bs
/-- MyBigInt.cpp:465-493 `Trim`: redundant sign bytes are taken off the end. -/
def trim (bytes : List Nat) : List Nat := (trimRev bytes.reverse).reverse

/-- MyBigInt.cpp:539-565 `NormalizeLengths`: sign extension of the shorter array. -/
def normalizeLengths (bytes1 bytes2 : List Nat) : Res (List Nat × List Nat) := do
  let top1 ← last bytes1
  let top2 ← last bytes2
  .ok (bytes1 ++ List.replicate (bytes2.length - bytes1.length) (if top1 &&& 0x80 ≠ 0 then 0xff else 0),
    bytes2 ++ List.replicate (bytes1.length - bytes2.length) (if top2 &&& 0x80 ≠ 0 then 0xff else 0))

/-- MyBigInt.cpp:507-524 the loop of `Add`, on arrays of equal length. -/
def addLoop : Bool → List Nat → List Nat → List Nat
  | carry, x :: xs, y :: ys =>
    let temp := x + y + (if carry then 1 else 0)
    if temp > 0xFF then (temp - 256) :: addLoop true xs ys else temp :: addLoop false xs ys
  | _, _, _ => []

/-- MyBigInt.cpp:495-537 `Add`. -/
def add (bytes1 bytes2 : List Nat) : Res (List Nat) := do
  let num1neg := decide ((← last bytes1) &&& 0x80 ≠ 0)
  let num2neg := decide ((← last bytes2) &&& 0x80 ≠ 0)
  let (bytes1, bytes2) ← normalizeLengths bytes1 bytes2
  let bnew := addLoop false bytes1 bytes2
  let bnewneg := decide ((← last bnew) &&& 0x80 ≠ 0)
  .ok (if num1neg = num2neg ∧ num1neg ≠ bnewneg then bnew ++ [if num1neg then 0xff else 0] else bnew)

/-- MyBigInt.cpp:199-211 `ShiftRight`: by one bit. -/
def shiftRight : List Nat → List Nat
  | [] => []
  | [b] => [b / 2 + (if b &&& 0x80 ≠ 0 then 128 else 0)]
  | b :: c :: bs => (b / 2 + (if c &&& 1 = 1 then 128 else 0)) :: shiftRight (c :: bs)

/-- MyBigInt.cpp:215-223, 797-811 the loop of `ShiftLeftGrow` and `ShiftLeftDrop`; `prev` is
`bytes[i - 1]`, 0 at the start. -/
def doubleLoop : Nat → List Nat → List Nat
  | _, [] => []
  | prev, b :: bs => ((if b > 127 then b - 128 else b) * 2 + (if prev ≥ 128 then 1 else 0)) :: doubleLoop b bs

/-- MyBigInt.cpp:213-233 `ShiftLeftGrow`: by one bit, a byte is added if needed. -/
def shiftLeftGrow (bytes : List Nat) : Res (List Nat) := do
  let top ← last bytes
  .ok (doubleLoop 0 bytes ++ (if top > 63 ∧ top < 128 then [0] else []) ++ (if top > 127 ∧ top < 192 then [0xFF] else []))

/-- MyBigInt.cpp:792-814 `ShiftLeftDrop`: by one bit, the top bit is lost. -/
def shiftLeftDrop (bytes : List Nat) : List Nat := doubleLoop 0 bytes

/-- BitArray.cpp:4-8 `BitArray(bytes)`: the bits, least significant first. -/
def bitArray (bytes : List Nat) : List Bool := bytes.flatMap fun b => (List.range 8).map b.testBit

/-- MyBigInt.cpp:262-270 and the like: the loop from index `n - 1` down to the highest set bit; 0 if
none is set.  (All indices are below the size, so that `operator[]`, BitArray.cpp:19-25, does not
throw.) -/
def topLoop (ba : List Bool) : Nat → Nat
  | 0 => 0
  | i + 1 => if ba.getD i false then i else topLoop ba i
/-- The place of the highest set bit. -/
def topBit (ba : List Bool) : Nat := topLoop ba ba.length

/-- MyBigInt.cpp:291-294, 391-394: `ShiftLeftGrow`, `n` times. -/
def growLoop : Nat → List Nat → Res (List Nat)
  | 0, bytes => .ok bytes
  | n + 1, bytes => do growLoop n (← shiftLeftGrow bytes)

/-- MyBigInt.cpp:296-311, 396-411 the loop `while (shift >= 0)` of `Divide` and `Remainder`, with
`n = shift + 1`; the result is `bytes1` and `br`. -/
def divLoop : Nat → List Nat → List Nat → List Bool → Res (List Nat × List Bool)
  | 0, bytes1, _, br => .ok (bytes1, br)
  | shift + 1, bytes1, bytes2, br => do
    let bytes2 ← negate bytes2
    let bytes1 ← add bytes1 bytes2
    let bytes2 ← negate bytes2
    if (← last bytes1) < 128 then divLoop shift bytes1 (shiftRight bytes2) (br.set shift true)
    else divLoop shift (← add bytes1 bytes2) (shiftRight bytes2) br

/-- MyBigInt.cpp:331-341 the two loops of `GetBytes`, as one over `k = 8 * i + j` downwards. -/
def getBytesLoop (ba : List Bool) : Nat → List Nat → Res (List Nat)
  | 0, mask => .ok mask
  | k + 1, mask => do
    let mask ← shiftLeftGrow mask
    getBytesLoop ba k (if k < ba.length ∧ ba.getD k false then mask.set 0 (mask.headD 0 ||| 1) else mask)
/-- MyBigInt.cpp:321-344 `GetBytes`. -/
def getBytes (ba : List Bool) : Res (List Nat) := getBytesLoop ba (8 * (ba.length / 8 + 1)) [0]

/-- MyBigInt.cpp:241-319 `Divide`. -/
def divide (bytes1 bytes2 : List Nat) : Res (List Nat) := do
  let numPos := decide ((← last bytes1) &&& 0x80 = 0)
  let denPos := decide ((← last bytes2) &&& 0x80 = 0)
  let bytes1 ← (if numPos then pure bytes1 else negate bytes1)
  let bytes2 ← (if denPos then pure bytes2 else negate bytes2)
  let bytes1 := trim bytes1
  let bytes2 := trim bytes2
  let loc1 := topBit (bitArray bytes1)
  let loc2 := topBit (bitArray bytes2)
  if loc1 < loc2 then .ok [0]
  else do
    let shift := loc1 - loc2
    let bytes2 ← growLoop shift bytes2
    let (_, br) ← divLoop (shift + 1) bytes1 bytes2 (List.replicate (shift + 1) false)
    let result ← getBytes br
    if numPos = denPos then .ok result else negate result

/-- MyBigInt.cpp:346-421 `Remainder`. -/
def remainder (bytes1 bytes2 : List Nat) : Res (List Nat) := do
  let numPos := decide ((← last bytes1) &&& 0x80 = 0)
  let denPos := decide ((← last bytes2) &&& 0x80 = 0)
  let bytes1 ← (if numPos then pure bytes1 else negate bytes1)
  let bytes2 ← (if denPos then pure bytes2 else negate bytes2)
  let bytes1 := trim bytes1
  let bytes2 := trim bytes2
  let loc1 := topBit (bitArray bytes1)
  let loc2 := topBit (bitArray bytes2)
  if loc1 < loc2 then if numPos then .ok bytes1 else negate bytes1
  else do
    let shift := loc1 - loc2
    let bytes2 ← growLoop shift bytes2
    let (bytes1, _) ← divLoop (shift + 1) bytes1 bytes2 (List.replicate (shift + 1) false)
    if numPos then .ok bytes1 else negate bytes1

/-- MyBigInt.cpp:622-646 `Max`. -/
def max (bytes1 bytes2 : List Nat) : Res (List Nat) := do
  let b1Pos := decide ((← last bytes1) &&& 0x80 = 0)
  let b2Pos := decide ((← last bytes2) &&& 0x80 = 0)
  if b1Pos ≠ b2Pos then
    if b1Pos then .ok bytes1 else .ok bytes2
  else do
    let sum ← add bytes1 (← negate bytes2)
    if (← last sum) &&& 0x80 ≠ 0 then .ok bytes2 else .ok bytes1

/-- MyBigInt.cpp:648-655 `Not`. -/
def not (bytes : List Nat) : List Nat := bytes.map (· ^^^ 0xFF)

/-- MyBigInt.cpp:657-679, 751-760 `Or`, `And`, `Xor`. -/
def bitwise (f : Nat → Nat → Nat) (bytes1 bytes2 : List Nat) : Res (List Nat) := do
  let (bytes1, bytes2) ← normalizeLengths bytes1 bytes2
  .ok (bytes1.zipWith f bytes2)

/-- MyBigInt.cpp:775-786 the loop of `Multiply` from index `n - 1` down. -/
def mulLoop (ba2 : List Bool) (bytes1 : List Nat) : Nat → List Nat → Res (List Nat)
  | 0, bresult => .ok bresult
  | i + 1, bresult => do
    let bresult ← (if ba2.getD i false then add bytes1 bresult else pure bresult)
    mulLoop ba2 bytes1 i (if i ≠ 0 then shiftLeftDrop bresult else bresult)

/-- MyBigInt.cpp:816-825 `SetLength`. -/
def setLength (bytes : List Nat) (size : Nat) : Res (List Nat) :=
  if size ≤ bytes.length then .ok (bytes.take size) else .ub .outOfBounds

/-- MyBigInt.cpp:762-790 `Multiply`. -/
def multiply (bytes1 bytes2 : List Nat) : Res (List Nat) := do
  let (bytes1, bytes2) ← normalizeLengths bytes1 bytes2
  let bresult := List.replicate (2 * bytes1.length) 0
  let (bytes2, bresult) ← normalizeLengths bytes2 bresult
  let (bytes1, bresult) ← normalizeLengths bytes1 bresult
  let ba2 := bitArray bytes2
  let bresult ← mulLoop ba2 bytes1 ba2.length bresult
  setLength bresult bytes2.length

/-- MyBigInt.cpp:681-706 the loop of `GCD`; `n` bounds the number of rounds (simplified: with fewer
than needed the outcome is `diverge`). -/
def gcdLoop : Nat → List Nat → List Nat → Res (List Nat)
  | 0, _, _ => .diverge
  | n + 1, bytes1, bytes2 =>
    if isZero bytes2 then .ok bytes1 else do gcdLoop n bytes2 (← remainder bytes1 bytes2)
/-- MyBigInt.cpp:681-706 `GCD`. -/
def gcd (n : Nat) (bytes1 bytes2 : List Nat) : Res (List Nat) := do
  let numPos := decide ((← last bytes1) &&& 0x80 = 0)
  let denPos := decide ((← last bytes2) &&& 0x80 = 0)
  let bytes1 ← (if numPos then pure bytes1 else negate bytes1)
  let bytes2 ← (if denPos then pure bytes2 else negate bytes2)
  gcdLoop n (trim bytes1) (trim bytes2)

/-- MyBigInt.cpp:727-747 the loop of `Pow` (`reduce` does nothing) and 845-869 of `ModPow` (`reduce` is
the remainder by `bytes3`), from `i` for `n` rounds, `i + n = last1 + 1`. -/
def powLoop (reduce : List Nat → Res (List Nat)) (ba2 : List Bool) : Nat → Nat → List Nat → List Nat → Res (List Nat)
  | 0, _, _, result => .ok result
  | n + 1, i, bytes1, result => do
    let (bytes1, result) ← (if ba2.getD i false then do
        let result ← (if result = [] then pure bytes1 else do reduce (← multiply result bytes1))
        pure (trim bytes1, trim result)
      else pure (bytes1, result))
    let bytes1 ← (if n ≠ 0 then do pure (trim (← reduce (← multiply bytes1 bytes1))) else pure bytes1)
    powLoop reduce ba2 n (i + 1) bytes1 result

/-- MyBigInt.cpp:708-749 `Pow`. -/
def pow (bytes1 bytes2 : List Nat) : Res (List Nat) :=
  if isZero bytes2 then .ok [1]
  else do
    let ba2 := bitArray bytes2
    let result ← powLoop pure ba2 (topBit ba2 + 1) 0 bytes1 []
    .ok (if result = [] then [1] else result)

/-- MyBigInt.cpp:827-871 `ModPow`. -/
def modPow (bytes1 bytes2 bytes3 : List Nat) : Res (List Nat) :=
  if isZero bytes2 then remainder [1] bytes3
  else do
    let ba2 := bitArray bytes2
    let bytes1 ← remainder bytes1 bytes3
    let result ← powLoop (fun b => remainder b bytes3) ba2 (topBit ba2 + 1) 0 bytes1 []
    if result = [] then remainder [1] bytes3 else .ok result

/-- MyBigInt.cpp:167-172 the loop over the bits of `ShiftLeft`. -/
def bitShiftLoop (right : Bool) : Nat → List Nat → Res (List Nat)
  | 0, bytes => .ok bytes
  | n + 1, bytes => do bitShiftLoop right n (← (if right then pure (shiftRight bytes) else shiftLeftGrow bytes))

/-- MyBigInt.cpp:161-197 `ShiftLeft`: by the number in `bytes2`, to the right if it is negative.  (The
cast of `bitShift`, between -7 and 7, to `signed char` is left out.) -/
def shiftLeft (bytes1 bytes2 : List Nat) : Res (List Nat) := do
  let byteShift ← (← ofBytes (← divide bytes2 [8]) false false).toInt32
  let bitShift ← (← ofBytes (← remainder bytes2 [8]) false false).toInt32
  let bytes1 ← bitShiftLoop (bitShift < 0) bitShift.natAbs bytes1
  if byteShift < 0 then do
    let byteShift ← int (-byteShift)
    if byteShift.toNat ≥ bytes1.length then do
      if (← last bytes1) &&& 0x80 ≠ 0 then .ok [0xff] else .ok [0]
    else .ok (bytes1.drop byteShift.toNat)
  else .ok (List.replicate byteShift.toNat 0 ++ bytes1)

/-- MyBigInt.cpp:20-95 `DoUnaryOperatorMine`.  `none`: the logarithms, not modelled.  The last
condition of the code, `op == "uMultiply" || "u*"`, is always true. -/
def unary (num1 : BigInt) (op : String) : Option (Res BigInt) :=
  if op = "uLog10" ∨ op = "uLog" then none
  else some do
    let bytes1 ← num1.toBytes false false
    if op = "uSign" then
      if isZero bytes1 then ofInt32 0
      else do
        if isZero (← max bytes1 [0]) then ofInt32 (-1) else ofInt32 1
    else if op = "u~" then ofBytes (not bytes1) false false
    else if op = "uAbs" then do
      let bytes1 ← (if (← last bytes1) &&& 0x80 ≠ 0 then negate bytes1 else pure bytes1)
      ofBytes bytes1 false false
    else if op = "u--" then do ofBytes (← add bytes1 [0xff]) false false
    else if op = "u++" then do ofBytes (← add bytes1 [1]) false false
    else if op = "uNegate" ∨ op = "u-" then do ofBytes (← negate bytes1) false false
    else if op = "u+" then .ok num1
    else do ofBytes (← multiply bytes1 bytes1) false false

/-- MyBigInt.cpp:112-159 `DoBinaryOperatorMine`: the value returned and the one stored through `num3`.
`none`: `bLog`, not modelled.  `n` bounds the rounds of `GCD`. -/
def binary (n : Nat) (num1 num2 : BigInt) (op : String) : Option (Res (BigInt × BigInt)) :=
  if op = "bLog" then none
  else some do
    let bytes1 ← num1.toBytes false false
    let bytes2 ← num2.toBytes false false
    let num3 ← ofInt32 0
    let only (r : Res (List Nat)) : Res (BigInt × BigInt) := do
      let b ← ofBytes (← r) false false
      .ok (b, num3)
    if op = "bMin" then only do negate (← max (← negate bytes1) (← negate bytes2))
    else if op = "bMax" then only (max bytes1 bytes2)
    else if op = "b>>" then only do shiftLeft bytes1 (← negate bytes2)
    else if op = "b<<" then only (shiftLeft bytes1 bytes2)
    else if op = "b^" then only (bitwise (· ^^^ ·) bytes1 bytes2)
    else if op = "b|" then only (bitwise (· ||| ·) bytes1 bytes2)
    else if op = "b&" then only (bitwise (· &&& ·) bytes1 bytes2)
    else if op = "bGCD" then only (gcd n bytes1 bytes2)
    else if op = "bPow" then only do
      let arg2 ← num2.toInt32
      pow bytes1 (← (← ofInt32 arg2).toBytes false false)
    else if op = "bDivRem" then do
      let ret ← ofBytes (← divide bytes1 bytes2) false false
      let num3 ← ofBytes (← remainder bytes1 bytes2) false false
      .ok (ret, num3)
    else if op = "bRemainder" ∨ op = "b%" then only (remainder bytes1 bytes2)
    else if op = "bDivide" ∨ op = "b/" then only (divide bytes1 bytes2)
    else if op = "bMultiply" ∨ op = "b*" then only (multiply bytes1 bytes2)
    else if op = "bSubtract" ∨ op = "b-" then only do add bytes1 (← negate bytes2)
    else if op = "bAdd" ∨ op = "b+" then only (add bytes1 bytes2)
    else .throw .invalidArgument

/-- MyBigInt.cpp:97-105 `DoTertanaryOperatorMine`. -/
def ternary (num1 num2 num3 : BigInt) (op : String) : Res BigInt := do
  let bytes1 ← num1.toBytes false false
  let bytes2 ← num2.toBytes false false
  let bytes3 ← num3.toBytes false false
  if op = "tModPow" then do ofBytes (← modPow bytes1 bytes2 bytes3) false false
  else .throw .invalidArgument

/-! ### the library's side of the comparison -/

/-- stack_calc.cpp:181-209 `DoUnaryOperatorSN`.  `none`: the logarithms, not modelled.  (Simplified: the
`std::exception` thrown for an unknown operation is `invalidArgument` here and below.) -/
def libUnary (num1 : BigInt) (op : String) : Option (Res BigInt) :=
  if op = "uLog10" ∨ op = "uLog" then none
  else some (
    if op = "uSign" then do ofInt32 (← num1.signum)
    else if op = "u~" then num1.compl
    else if op = "uAbs" then num1.abs
    else if op = "uNegate" then num1.neg
    else if op = "u--" then num1.dec
    else if op = "u++" then num1.inc
    else if op = "u-" then num1.neg
    else if op = "u+" then num1.plus
    else if op = "uMultiply" then num1.mul num1
    else if op = "u*" then num1.mul num1
    else .throw .invalidArgument)

/-- stack_calc.cpp:131-179 `DoBinaryOperatorSN`: the value returned and the one stored in `num3`.
`std::min(a, b)` is `b < a ? b : a`, `std::max(a, b)` is `a < b ? b : a`.  `none`: `bLog`, not modelled.
`n` bounds the rounds of `greatest_common_divisor`. -/
def libBinary (n : Nat) (num1 num2 : BigInt) (op : String) : Option (Res (BigInt × BigInt)) :=
  if op = "bLog" then none
  else some (
    let only (r : Res BigInt) : Res (BigInt × BigInt) := do .ok (← r, zeroInt)
    if op = "bMin" then only do .ok (if ← num2.lt num1 then num2 else num1)
    else if op = "bMax" then only do .ok (if ← num1.lt num2 then num2 else num1)
    else if op = "b>>" then only do num1.shr (← num2.toInt32)
    else if op = "b<<" then only do num1.shl (← num2.toInt32)
    else if op = "b^" then only (num1.xor num2)
    else if op = "b|" then only (num1.or num2)
    else if op = "b&" then only (num1.and num2)
    else if op = "b%" then only (num1.rem num2)
    else if op = "b/" then only (num1.div num2)
    else if op = "b*" then only (num1.mul num2)
    else if op = "b-" then only (num1.sub num2)
    else if op = "b+" then only (num1.add num2)
    else if op = "bGCD" then only (BigInt.gcd n num1 num2)
    else if op = "bPow" then only do num1.pow (← num2.toInt32)
    else if op = "bDivRem" then num1.divRem num2
    else if op = "bRemainder" then only (num1.rem num2)
    else if op = "bDivide" then only (num1.div num2)
    else if op = "bMultiply" then only (num1.mul num2)
    else if op = "bSubtract" then only (num1.sub num2)
    else if op = "bAdd" then only (num1.add num2)
    else .throw .invalidArgument)

/-- stack_calc.cpp:211-217 `DoTertanaryOperatorSN`. -/
def libTernary (num1 num2 num3 : BigInt) (op : String) : Res BigInt :=
  if op = "tModPow" then num1.modPow num2 num3 else .throw .invalidArgument

end Oracle
end BigIntegerCpp
