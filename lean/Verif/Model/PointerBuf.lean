import Verif.Model.Pointer
import Verif.Model.Gcd
/-
src/BigIntegerCalculator/{BitsBuffer,FastReducer,PowMod,GcdInv}.cpp in memory: the buffers are
blocks, the multiplications, squarings and divisions are those of Model/Pointer.lean on addresses,
every local array and every copy is a block of its own that goes away with its scope.

Simplifications: a `uint_array` parameter taken by value is a copy only where the callee changes
it or the copy outlives a change of the original; where it is only read, it is read in place.
The words of an exponent are handed over as values.  Assigning a vector gives its block the new
contents, whether or not the program has to allocate: no routine keeps an address across one.
-/
namespace BigIntegerCpp
variable [Cfg]

/-- BitsBuffer.h:8-44: the block of `_bits`, and `_length`. -/
structure MBuf where
  blk : Nat
  length : Nat
  deriving DecidableEq, Repr

/-- `_bits.data()`. -/
def MBuf.data (b : MBuf) : Ptr := ⟨b.blk, 0⟩

/-- `dst = src` for two vectors. -/
def Mem.assign (m : Mem) (dst src : Nat) : Mem := m.set dst (m.block src)

/-- A null pointer; it is handed over with length 0 only. -/
def nullPtr : Ptr := ⟨0, 0⟩

/-- `std::fill(p, p + n, v)`. -/
def fillMem (p : Ptr) (n v : Nat) (m : Mem) : Res Mem := do
  let (_, m) ← forLoop n (fun i m => m.store p i v) 0 m
  .ok m

/-- `std::copy(src, src + n, dst)`. -/
def copyMem (src : Ptr) (n : Nat) (dst : Ptr) (m : Mem) : Res Mem := do
  let (_, m) ← forLoop n (fun i m => do
    let a ← m.load src i
    m.store dst i a) 0 m
  .ok m

/-- PowMod.cpp:61-65 `actual_length(value, length)`. -/
def actualLengthMem (value : Ptr) : Nat → Mem → Res Nat
  | 0, _ => .ok 0
  | length + 1, m => do
    let a ← m.load value length
    if a = 0 then actualLengthMem value length m else .ok (length + 1)

namespace MBuf

/-- BitsBuffer.cpp:4-8 `BitsBuffer(int, uint32_t)`. -/
def ofWord (size value : Nat) (m : Mem) : Res (MBuf × Mem) := do
  let (p, m) := m.alloc (List.replicate size 0)
  let m ← m.store p 0 value
  .ok (⟨p.blk, if value ≠ 0 then 1 else 0⟩, m)

/-- BitsBuffer.cpp:10-14 `BitsBuffer(int, uint_array)` for the array of `n` words at `value`. -/
def ofWords (size : Nat) (value : Ptr) (n : Nat) (m : Mem) : Res (MBuf × Mem) := do
  let n ← sizeInt n
  let length ← actualLengthMem value n m
  let (p, m) := m.alloc (List.replicate size 0)
  let m ← copyMem value length p m
  .ok (⟨p.blk, length⟩, m)

/-- BitsBuffer.cpp:79-86 `Apply`, with its local copy `t`; the new `*this` (`temp._length` stays). -/
def apply (self temp : MBuf) (maxLength : Nat) (m : Mem) : Res (MBuf × Mem) := do
  let m ← fillMem self.data self.length 0 m
  let live := m.length
  let (t, m) := m.alloc (m.block temp.blk)
  let m := m.assign temp.blk self.blk
  let m := m.assign self.blk t.blk
  let length ← actualLengthMem self.data maxLength m
  .ok (⟨self.blk, length⟩, m.release live)

/-- BitsBuffer.cpp:16-26 `MultiplySelf`. -/
def multiplySelf (self value temp : MBuf) (m : Mem) : Res (MBuf × Mem) := do
  let m ← (if self.length < value.length then
      mulMem value.data value.length self.data self.length temp.data (self.length + value.length) m
    else
      mulMem self.data self.length value.data value.length temp.data (self.length + value.length) m)
  apply self temp (self.length + value.length) m

/-- BitsBuffer.cpp:28-34 `SquareSelf`. -/
def squareSelf (self temp : MBuf) (m : Mem) : Res (MBuf × Mem) := do
  let m ← sqMem self.data self.length temp.data (self.length + self.length) m
  apply self temp (self.length + self.length) m

/-- BitsBuffer.cpp:40-45 `Reduce(const uint_array&)`, 47-54 `Reduce(BitsBuffer&)`: the modulus is
the array of `n` words at `modulus`. -/
def reduce (self : MBuf) (modulus : Ptr) (n : Nat) (m : Mem) : Res (MBuf × Mem) :=
  if self.length ≥ n then do
    let m ← divideMem self.data self.length modulus n nullPtr 0 m
    let length ← actualLengthMem self.data n m
    .ok (⟨self.blk, length⟩, m)
  else .ok (self, m)

/-- BitsBuffer.cpp:73-77 `Refresh`. -/
def refresh (self : MBuf) (maxLength : Nat) (m : Mem) : Res (MBuf × Mem) := do
  let m ← (if self.length > maxLength then fillMem self.data (self.length - maxLength) (u32 maxLength) m
    else .ok m)
  let length ← actualLengthMem self.data maxLength m
  .ok (⟨self.blk, length⟩, m)

/-- BitsBuffer.cpp:56-64 `Overwrite(uint64_t)`. -/
def overwrite (self : MBuf) (value : Nat) (m : Mem) : Res (MBuf × Mem) := do
  let m ← (if self.length > 2 then fillMem self.data (self.length - 2) 2 m else .ok m)
  let lo := u32 value
  let hi := u32 (value >>> 32)
  let m ← m.store self.data 0 lo
  let m ← m.store self.data 1 hi
  .ok (⟨self.blk, if hi ≠ 0 then 2 else if lo ≠ 0 then 1 else 0⟩, m)

end MBuf

/-- FastReducer.h:10-20: the blocks of `_modulus`, `_mu`, `_q1`, `_q2`, and `_muLength`. -/
structure MReducer where
  modulus : Nat
  mu : Nat
  q1 : Nat
  q2 : Nat
  muLength : Nat

namespace MReducer

/-- FastReducer.cpp:4-15 the constructor, for the modulus in `n` words at `modulus`;
DivRem.cpp:88-105 `divide(const uint_array&, const uint_array&)` with its three local arrays. -/
def make (modulus : Ptr) (n : Nat) (m : Mem) : Res (MReducer × Mem) := do
  let (mo, m) := m.alloc []
  let (mu, m) := m.alloc []
  let (q1, m) := m.alloc []
  let (q2, m) := m.alloc []
  let live := m.length
  let (r, m) := m.alloc (List.replicate (n * 2 + 1) 0)
  let m ← m.store r (n * 2) 1
  cassert (n ≠ 0)
  cassert (n * 2 + 1 ≥ n)
  let _ ← sizeInt (n * 2 + 1)
  let (localLeft, m) := m.alloc (List.replicate (n * 2 + 1) 0)
  let m ← copyMem r (n * 2 + 1) localLeft m
  let (localRight, m) := m.alloc (List.replicate n 0)
  let m ← copyMem modulus n localRight m
  let (bits, m) := m.alloc (List.replicate (n * 2 + 1 - n + 1) 0)
  let m ← divideMem localLeft (n * 2 + 1) localRight n bits (n * 2 + 1 - n + 1) m
  let m := m.assign mu.blk bits.blk
  let (copy, m) := m.alloc (List.replicate n 0)
  let m ← copyMem modulus n copy m
  let m := m.assign mo.blk copy.blk
  let (z1, m) := m.alloc (List.replicate (n * 2 + 2) 0)
  let m := m.assign q1.blk z1.blk
  let (z2, m) := m.alloc (List.replicate (n * 2 + 1) 0)
  let m := m.assign q2.blk z2.blk
  let size ← sizeInt (m.block mu.blk).length
  let muLength ← actualLengthMem mu size m
  .ok (⟨mo.blk, mu.blk, q1.blk, q2.blk, muLength⟩, m.release live)

/-- FastReducer.cpp:26-43 `DivMul`; the result array is the whole block `bits`. -/
def divMul (left : Ptr) (leftLength : Nat) (right : Ptr) (rightLength : Nat) (bits : Ptr) (k : Nat) (m : Mem) :
    Res (Nat × Mem) := do
  let m ← fillMem bits (m.block bits.blk).length 0 m
  if leftLength > k then do
    let leftLength := leftLength - k
    let m ← (if leftLength < rightLength then
        mulMem right rightLength (left.plus k) leftLength bits (leftLength + rightLength) m
      else
        mulMem (left.plus k) leftLength right rightLength bits (leftLength + rightLength) m)
    let n ← actualLengthMem bits (leftLength + rightLength) m
    .ok (n, m)
  else .ok (0, m)

/-- FastReducer.cpp:59-62: subtract the modulus (`n` words at `modulus`) while it fits.  The first
argument bounds the number of iterations, as in Model/Pow.lean. -/
def subModLoop (left modulus : Ptr) (n : Nat) : Nat → Nat → Mem → Res (Nat × Mem)
  | 0, _, _ => .diverge
  | fuel + 1, leftLength, m => do
    let c ← compareMem left leftLength modulus n m
    if c ≥ 0 then do
      let m ← subtractSelfMem left leftLength modulus n m
      let leftLength ← actualLengthMem left leftLength m
      subModLoop left modulus n fuel leftLength m
    else .ok (leftLength, m)

/-- FastReducer.cpp:45-66 `SubMod`, with the copies of its three arrays and the final `std::fill`
of the copy of `left`. -/
def subMod (left leftLength right rightLength modulus k : Nat) (m : Mem) : Res (Nat × Mem) := do
  let live := m.length
  let (l, m) := m.alloc (m.block left)
  let (r, m) := m.alloc (m.block right)
  let (mo, m) := m.alloc (m.block modulus)
  let n := (m.block modulus).length
  let leftLength := if leftLength > k then k else leftLength
  let rightLength := if rightLength > k then k else rightLength
  let m ← subtractSelfMem l leftLength r rightLength m
  let leftLength ← actualLengthMem l leftLength m
  let (leftLength, m) ← subModLoop l mo n (val (m.block l.blk) + 1) leftLength m
  let m ← fillMem l leftLength (u32 ((m.block l.blk).length - leftLength)) m
  .ok (leftLength, m.release live)

/-- FastReducer.cpp:17-24 `Reduce(uint_array value, int length)`, for the vector in block `value`. -/
def reduce (fr : MReducer) (value length : Nat) (m : Mem) : Res (Nat × Mem) := do
  let live := m.length
  let (v, m) := m.alloc (m.block value)
  let n := (m.block fr.modulus).length
  if length < n then .ok (length, m.release live)
  else do
    let (l1, m) ← divMul v length ⟨fr.mu, 0⟩ fr.muLength ⟨fr.q1, 0⟩ (n - 1) m
    let (l2, m) ← divMul ⟨fr.q1, 0⟩ l1 ⟨fr.modulus, 0⟩ n ⟨fr.q2, 0⟩ (n + 1) m
    let (len, m) ← subMod v.blk length fr.q2 l2 fr.modulus (n + 1) m
    .ok (len, m.release live)

end MReducer

/-- BitsBuffer.cpp:36-38 `Reduce(FastReducer&)`. -/
def MBuf.reduceFast (self : MBuf) (fr : MReducer) (m : Mem) : Res (MBuf × Mem) := do
  let (n, m) ← fr.reduce self.blk self.length m
  .ok (⟨self.blk, n⟩, m)

/-- PowMod.cpp:51-59, 162-175, 229-242: square-and-multiply over one exponent word; the returned
buffer is `result`. -/
def powLoopMem (red : MBuf → Mem → Res (MBuf × Mem)) (power : Nat) (value result temp : MBuf) (m : Mem) :
    Res (MBuf × Mem) :=
  if _h : power = 0 then .ok (result, m)
  else do
    let (result, m) ← (if power % 2 = 1 then do
        let (result, m) ← result.multiplySelf value temp m
        red result m
      else .ok (result, m))
    let (value, m) ← (if power ≠ 1 then do
        let (value, m) ← value.squareSelf temp m
        red value m
      else .ok (value, m))
    powLoopMem red (power / 2) value result temp m
termination_by power

/-- PowMod.cpp:149-157, 216-224: `n` bits of one exponent word; (value, result). -/
def powBitsMem (red : MBuf → Mem → Res (MBuf × Mem)) (temp : MBuf) :
    Nat → Nat → MBuf → MBuf → Mem → Res (MBuf × MBuf × Mem)
  | 0, _, value, result, m => .ok (value, result, m)
  | n + 1, p, value, result, m => do
    let (result, m) ← (if p % 2 = 1 then do
        let (result, m) ← result.multiplySelf value temp m
        red result m
      else .ok (result, m))
    let (value, m) ← value.squareSelf temp m
    let (value, m) ← red value m
    powBitsMem red temp n (p / 2) value result m

/-- PowMod.cpp:147-158, 215-225: all 32 bits of each of the given exponent words. -/
def powWordsMem (red : MBuf → Mem → Res (MBuf × Mem)) (temp : MBuf) :
    List Nat → MBuf → MBuf → Mem → Res (MBuf × MBuf × Mem)
  | [], value, result, m => .ok (value, result, m)
  | p :: ps, value, result, m => do
    let (value, result, m) ← powBitsMem red temp 32 p value result m
    powWordsMem red temp ps value result m

/-- PowMod.cpp:6-26 `pow(uint32_t, uint32_t)`, `pow(const uint_array&, uint32_t)` and `pow_core`:
the words returned, and the memory when the three buffers are gone. -/
def powCalcMem (mk : Nat → Mem → Res (MBuf × Mem)) (valueLength power : Nat) (m : Mem) : Res (List Nat × Mem) := do
  let size ← powBound power valueLength 1
  let live := m.length
  let (v, m) ← mk size m
  let (temp, m) ← MBuf.ofWord size 0 m
  let (result, m) ← MBuf.ofWord size 1 m
  let (r, m) ← powLoopMem (fun b m => .ok (b, m)) power v result temp m
  .ok (m.block r.blk, m.release live)

/-- PowMod.cpp:115-128 `pow_core(uint32_t, const uint_array&, BitsBuffer&)`; the modulus is in the
`n` words at `modulus`. -/
def powCoreModMem (power : Nat) (modulus : Ptr) (n : Nat) (value : MBuf) (m : Mem) : Res (List Nat × Mem) := do
  let live := m.length
  let size := (m.block value.blk).length
  let (temp, m) ← MBuf.ofWord size 0 m
  let (result, m) ← MBuf.ofWord size 1 m
  if n < ReducerThreshold then do
    let (r, m) ← powLoopMem (fun b m => b.reduce modulus n m) power value result temp m
    .ok (m.block r.blk, m.release live)
  else do
    let (fr, m) ← MReducer.make modulus n m
    let (r, m) ← powLoopMem (fun b m => b.reduceFast fr m) power value result temp m
    .ok (m.block r.blk, m.release live)

/-- PowMod.cpp:197-210 `pow_core(const uint_array&, const uint_array&, BitsBuffer&)` with 144-160
and 212-227. -/
def powCoreModWordsMem (power : List Nat) (modulus : Ptr) (n : Nat) (value : MBuf) (m : Mem) :
    Res (List Nat × Mem) := do
  let live := m.length
  let size := (m.block value.blk).length
  let (temp, m) ← MBuf.ofWord size 0 m
  let (result, m) ← MBuf.ofWord size 1 m
  let last ← idx power (power.length - 1)
  if n < ReducerThreshold then do
    let red := fun (b : MBuf) m => b.reduce modulus n m
    let (value, result, m) ← powWordsMem red temp power.dropLast value result m
    let (r, m) ← powLoopMem red last value result temp m
    .ok (m.block r.blk, m.release live)
  else do
    let (fr, m) ← MReducer.make modulus n m
    let red := fun (b : MBuf) m => b.reduceFast fr m
    let (value, result, m) ← powWordsMem red temp power value result m
    let (r, m) ← powLoopMem red last value result temp m
    .ok (m.block r.blk, m.release live)

/-- PowMod.cpp:130-142, 183-195: the buffer `v` for a base in `k` words at `value`: defined empty,
then assigned; `tmp` is the array of DivRem.cpp:107-122 `remainder`. -/
def modPowBaseMem (value : Ptr) (k : Nat) (modulus : Ptr) (n : Nat) (m : Mem) : Res (MBuf × Mem) := do
  let size ← sizeInt (n + n)
  let (v, m) := m.alloc []
  let live := m.length
  if k > n then do
    cassert (k ≠ 0)
    cassert (n ≠ 0)
    cassert (k ≥ n)
    let _ ← sizeInt k
    let (tmp, m) := m.alloc (List.replicate k 0)
    let m ← copyMem value k tmp m
    let m ← divideMem tmp k modulus n nullPtr 0 m
    let (b, m) ← MBuf.ofWords size tmp k m
    let m := m.assign v.blk b.blk
    .ok (⟨v.blk, b.length⟩, m.release live)
  else do
    let (b, m) ← MBuf.ofWords size value k m
    let m := m.assign v.blk b.blk
    .ok (⟨v.blk, b.length⟩, m.release live)

/-- PowMod.cpp:109-113, 130-142, 177-195: the overloads of `pow` with a modulus of several words.
`base` defines the buffer `v`, `core` is `pow_core` for the exponent at hand. -/
def modPowMem (base : Mem → Res (MBuf × Mem)) (core : MBuf → Mem → Res (List Nat × Mem)) (m : Mem) :
    Res (List Nat × Mem) := do
  let live := m.length
  let (v, m) ← base m
  let (r, m) ← core v m
  .ok (r, m.release live)

/-- GcdInv.cpp:166-220 `extract_digits`, with the copies `xBits` and `yBits`: (x, y). -/
def extractDigitsMem (xb yb : MBuf) (m : Mem) : Res ((Nat × Nat) × Mem) := do
  cassert (xb.length ≥ 3)
  cassert (yb.length ≥ 3)
  cassert (xb.length ≥ yb.length)
  let live := m.length
  let (xBits, m) := m.alloc (m.block xb.blk)
  let (yBits, m) := m.alloc (m.block yb.blk)
  if xb.length < 3 then .ub .outOfBounds else do
  let xh ← m.load xBits (xb.length - 1)
  let xm ← m.load xBits (xb.length - 2)
  let xl ← m.load xBits (xb.length - 3)
  let (yh, ym, yl) ← (
    if xb.length = yb.length then do
      let yh ← m.load yBits (yb.length - 1)
      let ym ← m.load yBits (yb.length - 2)
      let yl ← m.load yBits (yb.length - 3)
      .ok (yh, ym, yl)
    else if xb.length = yb.length + 1 then do
      let ym ← m.load yBits (yb.length - 1)
      let yl ← m.load yBits (yb.length - 2)
      .ok (0, ym, yl)
    else if xb.length = yb.length + 2 then do
      let yl ← m.load yBits (yb.length - 1)
      .ok (0, 0, yl)
    else .ok (0, 0, 0))
  let z := leadingZeros xh
  if z ≥ 32 then .ub .badShift else do
  let x := (u64 (xh <<< (32 + z)) ||| u64 (xm <<< z) ||| (xl >>> (32 - z))) >>> 1
  let y := (u64 (yh <<< (32 + z)) ||| u64 (ym <<< z) ||| (yl >>> (32 - z))) >>> 1
  cassert (x ≥ y)
  .ok ((x, y), m.release live)

/-- GcdInv.cpp:222-248 `lehmer_core`: the loop stores its digits in the copies `x` and `y`. -/
def lehmerCoreMem (xb yb : MBuf) (g : Guess) (m : Mem) : Res (MBuf × MBuf × Mem) := do
  cassert (xb.length ≥ 1)
  cassert (yb.length ≥ 1)
  cassert (xb.length ≥ yb.length)
  cassert (g.a ≤ 0x7FFFFFFF ∧ g.b ≤ 0x7FFFFFFF)
  cassert (g.c ≤ 0x7FFFFFFF ∧ g.d ≤ 0x7FFFFFFF)
  let live := m.length
  let (x, m) := m.alloc (m.block xb.blk)
  let (y, m) := m.alloc (m.block yb.blk)
  let length := yb.length
  let (_, _, _, m) ← forLoop length (fun i ((xc : Int), (yc : Int), m) => do
    let xi ← m.load x i
    let yi ← m.load y i
    let p ← long ((g.a : Int) * xi)
    let q ← long ((g.b : Int) * yi)
    let e ← long (p - q)
    let xDigit ← long (e + xc)
    let p ← long ((g.d : Int) * yi)
    let q ← long ((g.c : Int) * xi)
    let e ← long (p - q)
    let yDigit ← long (e + yc)
    let m ← m.store x i (u32i xDigit)
    let m ← m.store y i (u32i yDigit)
    .ok (xDigit / 4294967296, yDigit / 4294967296, m)) 0 (0, 0, m)
  let (xb, m) ← xb.refresh length m
  let (yb, m) ← yb.refresh length m
  .ok (xb, yb, m.release live)

/-- GcdInv.cpp:135-137, 144-146: `BitsBuffer temp = left; left = right; right = temp;`. -/
def swapMem (left right : MBuf) (m : Mem) : MBuf × MBuf × Mem :=
  let live := m.length
  let (t, m) := m.alloc (m.block left.blk)
  let m := m.assign left.blk right.blk
  let m := m.assign right.blk t.blk
  (⟨left.blk, right.length⟩, ⟨right.blk, left.length⟩, m.release live)

/-- GcdInv.cpp:70-149: the main loop; the first argument bounds the number of iterations. -/
def gcdLoopMem : Nat → MBuf → MBuf → Mem → Res (MBuf × MBuf × Mem)
  | 0, _, _, _ => .diverge
  | fuel + 1, left, right, m =>
    if right.length > 2 then do
      let ((x, y), m) ← extractDigitsMem left right m
      let g ← lehmerGuess x y ⟨1, 0, 0, 1, 0⟩
      if g.b = 0 then do
        let (left, m) ← left.reduce right.data right.length m
        let (left, right, m) := swapMem left right m
        gcdLoopMem fuel left right m
      else do
        let (left, right, m) ← lehmerCoreMem left right g m
        if g.iteration % 2 = 1 then
          let (left, right, m) := swapMem left right m
          gcdLoopMem fuel left right m
        else gcdLoopMem fuel left right m
    else .ok (left, right, m)

/-- GcdInv.cpp:58-164 `gcd(BitsBuffer&, BitsBuffer&)`: the new `left` and the memory. -/
def gcdBuffersMem (fuel : Nat) (left right : MBuf) (m : Mem) : Res (MBuf × Mem) := do
  cassert (left.length ≥ 2)
  cassert (right.length ≥ 2)
  cassert (left.length ≥ right.length)
  let (left, right, m) ← gcdLoopMem fuel left right m
  if right.length > 0 then do
    let (left, m) ← left.reduce right.data right.length m
    let live := m.length
    let (xBits, m) := m.alloc (m.block right.blk)
    let (yBits, m) := m.alloc (m.block left.blk)
    let x1 ← m.load xBits 1
    let x0 ← m.load xBits 0
    let y1 ← m.load yBits 1
    let y0 ← m.load yBits 0
    let (left, m) ← left.overwrite (gcd64 (u64 (x1 <<< 32) ||| x0) (u64 (y1 <<< 32) ||| y0)) m
    let (_, m) ← right.overwrite 0 m
    .ok (left, m.release live)
  else .ok (left, m)

/-- GcdInv.cpp:45-56 `gcd(uint_array, uint_array)` for arrays of `k` and `n` words. -/
def gcdVecMem (fuel : Nat) (left : Ptr) (k : Nat) (right : Ptr) (n : Nat) (m : Mem) : Res (List Nat × Mem) := do
  cassert (k ≥ 2)
  cassert (n ≥ 2)
  (if Cfg.ndebug then .ok () else do
    let c ← compareMem left k right n m
    cassert (c ≥ 0))
  let live := m.length
  let (lb, m) ← MBuf.ofWords k left k m
  let (rb, m) ← MBuf.ofWords n right n m
  let (r, m) ← gcdBuffersMem fuel lb rb m
  .ok (m.block r.blk, m.release live)

end BigIntegerCpp
