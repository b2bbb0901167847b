import Verif.Model.Core
/-
Model of src/BigInteger.cpp: shifts, bitwise operators, two's-complement words, bit length.
-/
namespace BigIntegerCpp
variable [Cfg]
namespace BigInt

/-- BigInteger.cpp:918-930 `get_parts_for_bit_manipulation`: the magnitude words (`xl` is their
number); the returned flag is `x._sign < 0`. -/
def partsForBits (a : BigInt) : Res (List Nat) :=
  if a.bits = [] then
    if a.sign < 0 then do
      let m ← int (-a.sign)
      .ok [u32i m]
    else .ok [u32i a.sign]
  else .ok a.bits

/-- BigInteger.cpp:967-972: `zd[i + digitShift] = rot << smallShift | carry`, then the final
carry. -/
def shlLoop (smallShift : Nat) : List Nat → Nat → List Nat
  | [], carry => [carry]
  | rot :: xs, carry =>
    (u32 (rot <<< smallShift) ||| carry) :: shlLoop smallShift xs (rot >>> (32 - smallShift))

/-- BigInteger.cpp:948-975: `<<=` for a positive shift count.  The array `zd` (zero-initialised,
length `zl`) is written as the concatenation of its untouched low words, the words stored by the
loop and, when `smallShift == 0`, the untouched top word. -/
def shlPos (a : BigInt) (shift : Nat) : Res BigInt := do
  let digitShift := shift / 32
  let smallShift := shift - digitShift * 32
  let xd ← a.partsForBits
  let xl ← sizeInt xd.length
  let _ ← int (xl + digitShift + 1)
  let zd := List.replicate digitShift 0 ++
    (if smallShift = 0 then xd ++ [0] else shlLoop smallShift xd 0)
  ofMagnitude zd (a.sign < 0)

/-- BigInteger.cpp:1086-1094: the words of `xd` from `digitShift` up, most significant first;
returns the stored words and the carry for the next lower word. -/
def shrLoop (neg : Bool) (smallShift : Nat) : List Nat → List Nat × Nat
  | [] => ([], 0)
  | rot :: rest =>
    let (zs, carry) := shrLoop neg smallShift rest
    let carryShift := 32 - smallShift
    let z := if neg ∧ rest = [] then (rot >>> smallShift) ||| u32 (0xFFFFFFFF <<< carryShift)
      else (rot >>> smallShift) ||| carry
    (z :: zs, u32 (rot <<< carryShift))

/-- BigInteger.cpp:1057-1100: `>>=` for a positive shift count. -/
def shrPos (a : BigInt) (shift : Nat) : Res BigInt := do
  let digitShift := shift / 32
  let smallShift := shift - digitShift * 32
  let xd ← a.partsForBits
  let xl ← sizeInt xd.length
  let negx := decide (a.sign < 0)
  let total ← (if negx then int (32 * xl) else .ok 0)
  if negx ∧ (shift : Int) ≥ total then .ok minusOneInt
  else
    let xd := if negx then twosComplement xd else xd
    let zd := if smallShift = 0 then xd.drop digitShift
      else (shrLoop negx smallShift (xd.drop digitShift)).1
    let zd := if negx then twosComplement zd else zd
    ofMagnitude zd negx

/-- BigInteger.cpp:937-976 `operator<<=`, 932-935 `operator<<`. -/
def shl (a : BigInt) (shift : Int) : Res BigInt :=
  if shift = 0 then .ok a
  else if shift = -2147483648 then do
    let x ← a.shrPos 2147483647
    x.shrPos 1
  else if shift < 0 then a.shrPos (-shift).toNat
  else a.shlPos shift.toNat

/-- BigInteger.cpp:1046-1101 `operator>>=`, 1041-1044 `operator>>`. -/
def shr (a : BigInt) (shift : Int) : Res BigInt :=
  if shift = 0 then .ok a
  else if shift = -2147483648 then do
    let x ← a.shlPos 2147483647
    x.shlPos 1
  else if shift < 0 then a.shlPos (-shift).toNat
  else a.shrPos shift.toNat

/-- BigInteger.cpp:998-1001: the highest index above 0 whose word differs from `hd`, else 0. -/
def msbIndex (hd : Nat) : List Nat → Nat
  | [] => 0
  | _ :: xs => if xs.all (· = hd) then 0 else msbIndex hd xs + 1

/-- BigInteger.cpp:978-1011 `to_uint32_array`. -/
def toUInt32Array (a : BigInt) : Res (List Nat) :=
  if a.bits.length = 0 ∧ a.sign = 0 then .ok []
  else do
    let (dwords, high) :=
      if a.bits.length = 0 then ([u32i a.sign], if a.sign < 0 then 4294967295 else 0)
      else if a.sign = -1 then (twosComplement a.bits, 4294967295)
      else (a.bits, 0)
    let _ ← sizeInt dwords.length
    let msb := msbIndex high dwords
    let w ← idx dwords msb
    let needExtraByte := decide (w &&& 0x80000000 ≠ high &&& 0x80000000)
    .ok (dwords.take (msb + 1) ++ (if needExtraByte then [high] else []))

/-- BigInteger.cpp:1031-1035, 1126-1130, 1181-1185: word-wise operation with sign extension. -/
def zipExt (f : Nat → Nat → Nat) (xe ye : Nat) : List Nat → List Nat → List Nat
  | [], [] => []
  | x :: xs, [] => f x ye :: zipExt f xe ye xs []
  | [], y :: ys => f xe y :: zipExt f xe ye [] ys
  | x :: xs, y :: ys => f x y :: zipExt f xe ye xs ys

/-- The common tail of `^=`, `&=`, `|=` (BigInteger.cpp:1025-1037, 1120-1131, 1175-1186). -/
def bitwise (f : Nat → Nat → Nat) (a b : BigInt) : Res BigInt := do
  let x ← a.toUInt32Array
  let y ← b.toUInt32Array
  let xe := if a.sign < 0 then 4294967295 else 0
  let ye := if b.sign < 0 then 4294967295 else 0
  ofTwos (zipExt f xe ye x y)

/-- BigInteger.cpp:1018-1039 `operator^=`. -/
def xor (a b : BigInt) : Res BigInt :=
  if a.bits.length = 0 ∧ b.bits.length = 0 then ofInt32 (i32 (u32i a.sign ^^^ u32i b.sign))
  else bitwise (· ^^^ ·) a b

/-- BigInteger.cpp:1108-1133 `operator&=`. -/
def and (a b : BigInt) : Res BigInt := do
  let za ← a.isZero
  let zb ← (if za then .ok false else b.isZero)
  if za ∨ zb then .ok zeroInt
  else if a.bits.length = 0 ∧ b.bits.length = 0 then ofInt32 (i32 (u32i a.sign &&& u32i b.sign))
  else bitwise (· &&& ·) a b

/-- BigInteger.cpp:1160-1188 `operator|=`. -/
def or (a b : BigInt) : Res BigInt := do
  let za ← a.isZero
  if za then .ok b else do
  let zb ← b.isZero
  if zb then .ok a
  else if a.bits.length = 0 ∧ b.bits.length = 0 then ofInt32 (i32 (u32i a.sign ||| u32i b.sign))
  else bitwise (· ||| ·) a b

/-- BigInteger.cpp:1200-1203: the table `debruijn32`. -/
def debruijn32 : List Nat :=
  [0, 31, 9, 30, 3, 8, 13, 29, 2, 5, 7, 21, 12, 24, 28, 19,
   1, 10, 4, 14, 6, 22, 25, 20, 11, 15, 23, 26, 16, 27, 17, 18]

/-- BigInteger.cpp:1204-1208: `value |= value >> 1, 2, 4, 8, 16`. -/
def smear (v : Nat) : Nat :=
  let v := v ||| (v >>> 1)
  let v := v ||| (v >>> 2)
  let v := v ||| (v >>> 4)
  let v := v ||| (v >>> 8)
  v ||| (v >>> 16)

/-- BigInteger.cpp:1196-1211 `leading_zeros_count`. -/
def leadingZerosCount (value : Nat) : Res Nat :=
  if value = 0 then .ok 32
  else
    let v := u32 (smear value + 1)
    idx debruijn32 (u32 (v * 0x076be629) >>> 27)

/-- BigInteger.cpp:1213-1250 `get_bit_length`. -/
def bitLength (a : BigInt) : Res Nat := do
  assertValid a
  let (len, high) ← (if a.bits = [] then
      if a.sign < 0 then do
        let m ← int (-a.sign)
        .ok (1, u32i m)
      else .ok (1, u32i a.sign)
    else do
      let n ← sizeInt a.bits.length
      let w ← idx a.bits (n - 1)
      .ok (n, w))
  let lz ← leadingZerosCount high
  let bitLength ← long ((len : Int) * 32 - lz)
  if a.sign ≥ 0 then .ok (u64i bitLength)
  else if high &&& u32sub high 1 ≠ 0 then .ok (u64i bitLength)
  else if a.bits.dropLast.all (· = 0) then .ok (u64i (bitLength - 1))
  else .ok (u64i bitLength)

end BigInt
end BigIntegerCpp
