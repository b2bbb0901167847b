import Verif.Model.PythonObject
import Mathlib.Algebra.Order.Group.Unbundled.Int
/-
Specification of Python buffers and of the unary operators of Python on integers.
-/
namespace BigIntegerCpp

/-- The elements of a buffer in the buffer protocol's own terms: the `i`-th lies `i * stride` bytes
after (or before) the first.  This is what `bytes(b)` gives. -/
def PyBuffer.elements (b : PyBuffer) : List Nat :=
  (List.range b.size).map fun (i : Nat) => b.memory.getD (b.start + (i : Int) * b.stride).toNat 0

/-- All elements lie in the block, which holds bytes; one dimension of unsigned bytes. -/
structure PyBuffer.Ok (b : PyBuffer) : Prop where
  bytes : BytesOk b.memory
  start : b.start ≤ b.memory.length
  inside : ∀ i, i < b.size → 0 ≤ b.start + (i : Int) * b.stride ∧ b.start + (i : Int) * b.stride < b.memory.length
  format : b.format = "B"
  ndim : b.ndim = 1

/-- The integer that Python's operator gives. -/
def PyUn.meaning : PyUn → Int → Int
  | neg, x => -x
  | pos, x => x
  | abs, x => |x|
  | invert, x => Int.not x
  | deepcopy, x => x

def PyConst.meaning : PyConst → Int
  | zero => 0
  | one => 1
  | minusOne => -1

end BigIntegerCpp
