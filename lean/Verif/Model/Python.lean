import Verif.Model.Core
import Verif.Model.Bits
import Verif.Model.Bytes
import Verif.Model.Text
import Verif.Model.Convert
import Verif.Model.Pow
/-
Model of the Python bindings, /repo/bindings/python/python-bindings.cpp.  Python itself, pybind11
and the three CPython functions used for conversion are described by their documented behaviour:
Python integers are integers, pybind11 chooses the overload by the type of the argument, and
`a op b` calls `a.__op__(b)` if `a` is a `BigInteger`, else the reflected method of `b`.
-/
namespace BigIntegerCpp
variable [Cfg]

/-- A Python `int` object.  `isZeroObject` tells whether it is the interpreter's own object for 0,
which is what `value.is(py::int_(0))` (line 21) asks; another object equal to zero may exist
(`False`, or an instance of a subclass). -/
structure PyInt where
  value : Int
  isZeroObject : Bool := decide (value = 0)
  zero_object : isZeroObject = true → value = 0 := by decide

/-- CPython `_PyLong_NumBits`: number of bits of the magnitude. -/
def numBits (v : Int) : Nat := if v = 0 then 0 else Nat.log2 v.natAbs + 1

/-- The `n` low base-256 digits of `u`, least significant first. -/
def lowBytes : Nat → Nat → List Nat
  | 0, _ => []
  | n + 1, u => u % 256 :: lowBytes n (u / 256)

/-- CPython `_PyLong_AsByteArray(v, bytes, n, little_endian = 1, is_signed)`: `none` (an exception)
if `v` does not fit, otherwise its `n` bytes. -/
def asByteArray (v : Int) (n : Nat) (isSigned : Bool) : Option (List Nat) :=
  if isSigned then
    if -(256 : Int) ^ n ≤ 2 * v ∧ 2 * v < (256 : Int) ^ n then some (lowBytes n (v % (256 : Int) ^ n).toNat) else none
  else if 0 ≤ v ∧ v < (256 : Int) ^ n then some (lowBytes n v.toNat) else none

/-- CPython `_PyLong_FromByteArray(bytes, n, little_endian = 1, is_signed = 1)`. -/
def fromByteArray (bytes : List Nat) : Int := signedVal 8 bytes

/-- python-bindings.cpp:51-56: the loop over `i = buffer.size() - 1, …, 1`; the first byte other
than 0xff, else the initial value of `msb`. -/
def findMsb (buffer : List Nat) (msb : Nat) : Nat → Res Nat
  | 0 => .ok msb
  | i + 1 => do
    let b ← idx buffer (i + 1)
    if b ≠ 0xff then .ok b else findMsb buffer msb i

/-- python-bindings.cpp:16-68 `to_biginteger(value, false)`; no caller passes `is_bigendian = true`
(Model/PythonOrder.lean).  `n_bytes` goes through a `double` (line 24), exact below 2^53. -/
def toBigInteger (v : PyInt) : Res BigInt :=
  if v.isZeroObject then .ok zeroInt
  else
    let isSigned : Bool := decide (v.value < 0)
    let n := (numBits v.value + 7) / 8 + (if isSigned then 1 else 0)
    match asByteArray v.value n isSigned with
    | none => .throw .invalidArgument
    | some buffer =>
      if !isSigned then ofBytes buffer true false
      else do
        let msb ← findMsb buffer (buffer.length - 1) (buffer.length - 1)
        if msb &&& 0x80 ≠ 0xff &&& 0x80 then ofBytes buffer false false
        else ofBytes (buffer.take (buffer.length - 1)) false false

/-- python-bindings.cpp:70-78 `to_py_int(value)`. -/
def toPyInt (a : BigInt) : Res Int := do
  let data ← a.toBytes false false
  .ok (fromByteArray data)

/-- pybind11 `cast<int>()`. -/
def castInt (n : PyInt) : Res Int :=
  if -2147483648 ≤ n.value ∧ n.value < 2147483648 then .ok n.value else .throw .castError

/-- The binary operators of Python that are bound to one operator of `BigInteger`. -/
inductive PyOp
  | add | sub | mul | mod | truediv | floordiv | and | or | xor
  deriving DecidableEq, Repr

/-- `self.__op__(other)` for a `BigInteger` `other`. -/
def PyOp.method : PyOp → BigInt → BigInt → Res BigInt
  | add, self, other => self.add other          -- 134-136
  | sub, self, other => self.sub other          -- 144-146
  | mul, self, other => self.mul other          -- 154-156
  | mod, self, other => self.rem other          -- 164-166
  | truediv, self, other => self.div other      -- 222-224
  | floordiv, self, other => self.div other     -- 232-234
  | and, self, other => self.and other          -- 262-264
  | or, self, other => self.or other            -- 274-276
  | xor, self, other => self.xor other          -- 286-288

/-- `self.__op__(other)` for an `int` `other`. -/
def PyOp.methodInt : PyOp → BigInt → PyInt → Res BigInt
  | add, self, other => do let o ← toBigInteger other; o.add self        -- 137-139, in this order
  | sub, self, other => do let o ← toBigInteger other; self.sub o        -- 147-149
  | mul, self, other => do let o ← toBigInteger other; self.mul o        -- 157-159
  | mod, self, other => do let o ← toBigInteger other; self.rem o        -- 167-169
  | truediv, self, other => do let o ← toBigInteger other; self.div o    -- 225-227
  | floordiv, self, other => do let o ← toBigInteger other; self.div o   -- 235-237
  | and, self, other => do let o ← toBigInteger other; self.and o        -- 265-268
  | or, self, other => do let o ← toBigInteger other; self.or o          -- 277-280
  | xor, self, other => do let o ← toBigInteger other; self.xor o        -- 289-292

/-- `self.__rop__(other)`, which Python calls for `other op self` with an `int` `other`. -/
def PyOp.reflected : PyOp → BigInt → PyInt → Res Int
  | add, self, other => do let o ← toBigInteger other; toPyInt (← self.add o)        -- 140-143
  | sub, self, other => do let o ← toBigInteger other; toPyInt (← o.sub self)        -- 150-153
  | mul, self, other => do let o ← toBigInteger other; toPyInt (← o.mul self)        -- 160-163
  | mod, self, other => do let o ← toBigInteger other; toPyInt (← o.rem self)        -- 174-177
  | truediv, self, other => do let o ← toBigInteger other; toPyInt (← o.div self)    -- 228-231
  | floordiv, self, other => do let o ← toBigInteger other; toPyInt (← o.div self)   -- 238-241
  | and, self, other => do let o ← toBigInteger other; toPyInt (← self.and o)        -- 269-273
  | or, self, other => do let o ← toBigInteger other; toPyInt (← self.or o)          -- 281-285
  | xor, self, other => do let o ← toBigInteger other; toPyInt (← self.xor o)        -- 293-297

/-- A Python object of one of the two types. -/
inductive PyVal
  | big (a : BigInt)
  | int (n : PyInt)

/-- Python's `l op r`; two `int`s do not reach the bindings. -/
def PyOp.eval (op : PyOp) : PyVal → PyVal → Option (Res (BigInt ⊕ Int))
  | .big a, .big b => some (do .ok (.inl (← op.method a b)))
  | .big a, .int n => some (do .ok (.inl (← op.methodInt a n)))
  | .int n, .big b => some (do .ok (.inr (← op.reflected b n)))
  | .int _, .int _ => none

/-- The comparisons. -/
inductive PyCmp
  | lt | le | eq | ne | gt | ge
  deriving DecidableEq, Repr

/-- `operator<` etc. on `BigInteger`s: the bindings' bodies (lines 99-133).  `!=` has no binding;
Python negates `__eq__`. -/
def PyCmp.method : PyCmp → BigInt → BigInt → Res Bool
  | lt, a, b => a.lt b
  | le, a, b => a.le b
  | eq, a, b => a.equals b
  | ne, a, b => do let r ← a.equals b; .ok !r
  | gt, a, b => a.gt b
  | ge, a, b => a.ge b

/-- The comparison Python asks the right operand for if the left one is an `int`. -/
def PyCmp.mirror : PyCmp → PyCmp
  | lt => gt
  | le => ge
  | eq => eq
  | ne => ne
  | gt => lt
  | ge => le

/-- Python's `l cmp r`. -/
def PyCmp.eval (c : PyCmp) : PyVal → PyVal → Option (Res Bool)
  | .big a, .big b => some (c.method a b)
  | .big a, .int n => some (do let o ← toBigInteger n; c.method a o)
  | .int n, .big b => some (do let o ← toBigInteger n; c.mirror.method b o)
  | .int _, .int _ => none

/-- Python's `l << r`, python-bindings.cpp:242-251.  A `BigInteger` shift count becomes an `int` by
the implicit `operator int`. -/
def pyShl : PyVal → PyVal → Option (Res (BigInt ⊕ Int))
  | .big a, .big b => some (do let n ← b.toInt32; .ok (.inl (← a.shl n)))
  | .big a, .int k => some (do let n ← castInt k; .ok (.inl (← a.shl n)))
  | .int k, .big b => some (do
      let a ← toBigInteger k
      let n ← b.toInt32
      .ok (.inr (← toPyInt (← a.shl n))))
  | .int _, .int _ => none

/-- Python's `l >> r`, python-bindings.cpp:252-261. -/
def pyShr : PyVal → PyVal → Option (Res (BigInt ⊕ Int))
  | .big a, .big b => some (do let n ← b.toInt32; .ok (.inl (← a.shr n)))
  | .big a, .int k => some (do let n ← castInt k; .ok (.inl (← a.shr n)))
  | .int k, .big b => some (do
      let a ← toBigInteger k
      let n ← b.toInt32
      .ok (.inr (← toPyInt (← a.shr n))))
  | .int _, .int _ => none

/-- Python's `l ** r`, python-bindings.cpp:199-212.  An exponent that is not an `int` in the C++
sense throws `overflow_error` (line 207, and `operator int`). -/
def pyPow : PyVal → PyVal → Option (Res (BigInt ⊕ Int))
  | .big a, .big b => some (do let n ← b.toInt32; .ok (.inl (← a.pow n)))
  | .big a, .int k => some (
      match castInt k with
      | .throw .castError => .throw .overflowError
      | r => do let n ← r; .ok (.inl (← a.pow n)))
  | .int k, .big b => some (do
      let a ← toBigInteger k
      let n ← b.toInt32
      .ok (.inr (← toPyInt (← a.pow n))))
  | .int _, .int _ => none

/-- Python's `divmod(l, r)`, python-bindings.cpp:182-198; the reflected form goes through text. -/
def pyDivmod : PyVal → PyVal → Option (Res ((BigInt × BigInt) ⊕ (Int × Int)))
  | .big a, .big b => some (do .ok (.inl (← a.divRem b)))
  | .big a, .int k => some (do let b ← toBigInteger k; .ok (.inl (← a.divRem b)))
  | .int k, .big b => some (do
      let a ← toBigInteger k
      let (q, r) ← a.divRem b
      let s ← q.toStr
      let t ← r.toStr
      .ok (.inr (textValue s, textValue t)))
  | .int _, .int _ => none

/-- Python's `pow(a, e, m)`, python-bindings.cpp:213-221; the other combinations are not bound. -/
def pyPowMod : PyVal → PyVal → PyVal → Option (Res BigInt)
  | .big a, .big e, .big m => some (a.modPow e m)
  | .big a, .int e, .big m => some (do let e ← toBigInteger e; a.modPow e m)
  | .big a, .big e, .int m => some (do let m ← toBigInteger m; a.modPow e m)
  | _, _, _ => none

/-- python-bindings.cpp:117-121 `__hash__`: arithmetic in `long`; the literal is a `long`. -/
def pyHash (a : BigInt) : Int := i64 (u64i (2166136261 * 16777619) ^^^ u64i a.hashCode)

/-- CPython's own `hash(n)` for a non-negative `int` below `2^61 - 1` (the value itself). -/
def intHash (n : Nat) : Nat := n

end BigIntegerCpp
