import Verif.Model.Gcd
import Mathlib.Logic.Function.Basic
/-
Sequences of calls of the methods of `BitsBuffer` (include/BitsBuffer.h) on buffers of one size, with one scratch
buffer, as PowMod.cpp and GcdInv.cpp use them.  The default constructor, whose object has no array, is left out.
-/
namespace BigIntegerCpp
variable [Cfg]

/-- src/BigIntegerCalculator/BitsBuffer.cpp:66-71 `Overwrite(uint32_t)`: fills the first `_length - 1` words with the
number 1.  No function of the repository calls it. -/
def BitsBuffer.overwriteWord (self : BitsBuffer) (value : Nat) : Res BitsBuffer := do
  let bits ← (if self.length > 1 then do
      let _ ← slice self.bits 0 (self.length - 1)
      .ok (List.replicate (self.length - 1) 1 ++ self.bits.drop (self.length - 1))
    else .ok self.bits)
  let bits ← put bits 0 value
  .ok ⟨bits, if value ≠ 0 then 1 else 0⟩

/-- A call on the buffer with the number `i`. -/
inductive BufOp
  /-- `b[i] = BitsBuffer(size, value)` with a `uint32_t` -/
  | word (i value : Nat)
  /-- `b[i] = BitsBuffer(size, value)` with a `uint_array` -/
  | words (i : Nat) (value : List Nat)
  /-- `b[i].MultiplySelf(b[j], temp)`; `i` and `j` may be the same -/
  | multiply (i j : Nat)
  /-- `b[i].SquareSelf(temp)` -/
  | square (i : Nat)
  /-- `b[i].Reduce(modulus)` with a `uint_array` -/
  | reduce (i : Nat) (modulus : List Nat)
  /-- `b[i].Reduce(b[j])` -/
  | reduceBy (i j : Nat)
  /-- `FastReducer reducer(modulus); b[i].Reduce(reducer)` -/
  | reduceFast (i : Nat) (modulus : List Nat)
  /-- `b[i].Overwrite(value)` with a `uint64_t` -/
  | overwrite (i value : Nat)
  /-- `b[i].Overwrite(value)` with a `uint32_t` -/
  | overwriteWord (i value : Nat)
  /-- `b[i].Refresh(maxLength)` -/
  | refresh (i maxLength : Nat)

/-- The buffers and the scratch buffer. -/
structure Bench where
  bufs : Nat → BitsBuffer
  temp : BitsBuffer

/-- Puts a buffer into place `i`. -/
def Bench.set (s : Bench) (i : Nat) (b : BitsBuffer) : Bench := ⟨Function.update s.bufs i b, s.temp⟩

/-- One call (the methods: BitsBuffer.cpp:4-77, cited at their definitions). -/
def BufOp.exec (size : Nat) (s : Bench) : BufOp → Res Bench
  | word i v => BitsBuffer.ofWord size v >>= fun b => .ok (s.set i b)
  | words i v => BitsBuffer.ofWords size v >>= fun b => .ok (s.set i b)
  | multiply i j => (s.bufs i).multiplySelf (s.bufs j) s.temp >>= fun p => .ok ⟨Function.update s.bufs i p.1, p.2⟩
  | square i => (s.bufs i).squareSelf s.temp >>= fun p => .ok ⟨Function.update s.bufs i p.1, p.2⟩
  | reduce i m => (s.bufs i).reduce m >>= fun b => .ok (s.set i b)
  | reduceBy i j => (s.bufs i).reduceBy (s.bufs j) >>= fun b => .ok (s.set i b)
  | reduceFast i m => FastReducer.make m >>= fun fr => (s.bufs i).reduceFast fr >>= fun b => .ok (s.set i b)
  | overwrite i v => (s.bufs i).overwrite v >>= fun b => .ok (s.set i b)
  | overwriteWord i v => (s.bufs i).overwriteWord v >>= fun b => .ok (s.set i b)
  | refresh i n => (s.bufs i).refresh n >>= fun b => .ok (s.set i b)

/-- One call after the other. -/
def runOps (size : Nat) : List BufOp → Bench → Res Bench
  | [], s => .ok s
  | op :: ops, s => op.exec size s >>= fun s => runOps size ops s

end BigIntegerCpp
