import Verif.Spec
/-
How many bytes Python's integers take in the buffers of the bindings (C91).
-/
namespace BigIntegerCpp

/-- The least number of bytes that hold the magnitude. -/
def magnitudeBytes (v : Int) : Nat := if v = 0 then 0 else Nat.log2 v.natAbs / 8 + 1

/-- The number of bytes handed to the constructor in the big-endian form: those of the magnitude, and one more for a
negative number that does not fit them or is minus a power of 256. -/
def bufferBytes (v : Int) : Nat :=
  if 0 ≤ v then magnitudeBytes v
  else if 2 * v.natAbs ≤ 256 ^ magnitudeBytes v ∧ v.natAbs ≠ 256 ^ (magnitudeBytes v - 1) then magnitudeBytes v
  else magnitudeBytes v + 1

/-- The bytes that stand for `v` in that many bytes, most significant first: Python's
`v.to_bytes(bufferBytes v, 'big', signed = v < 0)`. -/
structure BigEndianBytes (v : Int) (w : List Nat) : Prop where
  bytes : BytesOk w
  length : w.length = bufferBytes v
  value : bytesValue (decide (0 ≤ v)) true w = v

end BigIntegerCpp
