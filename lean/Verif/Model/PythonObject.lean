import Verif.Model.Python
/-
Model of the rest of the Python class, /repo/bindings/python/python-bindings.cpp: construction from
a buffer, `bytes()`, and the unary methods.
-/
namespace BigIntegerCpp
variable [Cfg]

/-- What `b.request()` tells about a Python object with the buffer protocol: the block of memory it
lies in (the whole allocation, so for a `bytes` object also the final NUL), the position of its
first element in it, the number of elements, the distance from one element to the next, and the
`format` and `ndim` of the buffer protocol. -/
structure PyBuffer where
  memory : List Nat
  start : Nat
  size : Nat
  stride : Int
  format : String := "B"
  ndim : Nat := 1

/-- python-bindings.cpp:89-97 `BigInteger(value)` for a buffer: `size` bytes from the first one on,
whatever the stride. -/
def ofBuffer (b : PyBuffer) : Res BigInt :=
  if b.format ≠ "B" ∨ b.ndim ≠ 1 then .throw .runtimeError
  else do
    let data ← slice b.memory b.start b.size
    ofBytes data false false

/-- A `bytes` object as a buffer. -/
def bytesBuffer (v : List Nat) : PyBuffer := { memory := v ++ [0], start := 0, size := v.length, stride := 1 }

/-- python-bindings.cpp:302-305 `__bytes__`. -/
def pyBytes (a : BigInt) : Res (List Nat) := a.toBytes false false

/-- python-bindings.cpp:309-318 `to_array(is_unsigned, is_bigendian)`. -/
def pyToArray (a : BigInt) (isUnsigned isBigEndian : Bool) : Res (List Nat) := a.toBytes isUnsigned isBigEndian

/-- The methods from `BigInteger` to `BigInteger`. -/
inductive PyUn
  | neg | pos | abs | invert | deepcopy

/-- python-bindings.cpp:298-301 and 323-326: `self.__neg__()` etc. -/
def PyUn.method : PyUn → BigInt → Res BigInt
  | neg, self => self.neg              -- 298
  | pos, self => self.plus             -- 299
  | abs, self => self.abs              -- 300
  | invert, self => self.compl         -- 301
  | deepcopy, self => .ok self         -- 323-326

/-- The static methods without arguments. -/
inductive PyConst
  | zero | one | minusOne

/-- python-bindings.cpp:327-329. -/
def PyConst.method : PyConst → BigInt
  | zero => zeroInt                    -- 327
  | one => oneInt                      -- 328
  | minusOne => minusOneInt            -- 329

/-- python-bindings.cpp:319 `__int__`, 321 `__index__`; 320 `__float__` makes a Python `float` of
the same Python `int`. -/
def pyIntMethod (a : BigInt) : Res Int := toPyInt a

/-- python-bindings.cpp:322 `__str__`. -/
def pyStr (a : BigInt) : Res (List Char) := a.toStr

end BigIntegerCpp
