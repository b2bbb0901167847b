import Verif.Model.Long32Pow
import Verif.Model.Python
/-
bindings/python/python-bindings.cpp compiled where `long` has 32 bits, as Python is on Windows: the operators are those of
Model/Long32.lean and Model/Long32Pow.lean.  `/`, `%`, `&`, `|`, `^`, the comparisons, the shifts and the conversions
between `BigInteger` and Python's `int` have no `long` in them (`msb` in line 42 is the size of a buffer) and stay as in
Model/Python.lean.
-/
namespace BigIntegerCpp
variable [Cfg]
namespace Long32

/-- `self.__op__(other)` for a `BigInteger` `other`. -/
def pyMethod : PyOp → BigInt → BigInt → Res BigInt
  | .add, self, other => Long32.add self other          -- 134-136
  | .sub, self, other => Long32.sub self other          -- 144-146
  | .mul, self, other => Long32.mul self other          -- 154-156
  | .mod, self, other => self.rem other                 -- 164-166
  | .truediv, self, other => self.div other             -- 222-224
  | .floordiv, self, other => self.div other            -- 232-234
  | .and, self, other => self.and other                 -- 262-264
  | .or, self, other => self.or other                   -- 274-276
  | .xor, self, other => self.xor other                 -- 286-288

/-- `self.__op__(other)` for an `int` `other`. -/
def pyMethodInt : PyOp → BigInt → PyInt → Res BigInt
  | .add, self, other => do let o ← toBigInteger other; Long32.add o self      -- 137-139, in this order
  | .sub, self, other => do let o ← toBigInteger other; Long32.sub self o      -- 147-149
  | .mul, self, other => do let o ← toBigInteger other; Long32.mul self o      -- 157-159
  | .mod, self, other => do let o ← toBigInteger other; self.rem o             -- 167-169
  | .truediv, self, other => do let o ← toBigInteger other; self.div o         -- 225-227
  | .floordiv, self, other => do let o ← toBigInteger other; self.div o        -- 235-237
  | .and, self, other => do let o ← toBigInteger other; self.and o             -- 265-268
  | .or, self, other => do let o ← toBigInteger other; self.or o               -- 277-280
  | .xor, self, other => do let o ← toBigInteger other; self.xor o             -- 289-292

/-- `self.__rop__(other)`, which Python calls for `other op self` with an `int` `other`. -/
def pyReflected : PyOp → BigInt → PyInt → Res Int
  | .add, self, other => do let o ← toBigInteger other; toPyInt (← Long32.add self o)     -- 140-143
  | .sub, self, other => do let o ← toBigInteger other; toPyInt (← Long32.sub o self)     -- 150-153
  | .mul, self, other => do let o ← toBigInteger other; toPyInt (← Long32.mul o self)     -- 160-163
  | .mod, self, other => do let o ← toBigInteger other; toPyInt (← o.rem self)            -- 174-177
  | .truediv, self, other => do let o ← toBigInteger other; toPyInt (← o.div self)        -- 228-231
  | .floordiv, self, other => do let o ← toBigInteger other; toPyInt (← o.div self)       -- 238-241
  | .and, self, other => do let o ← toBigInteger other; toPyInt (← self.and o)            -- 269-273
  | .or, self, other => do let o ← toBigInteger other; toPyInt (← self.or o)              -- 281-285
  | .xor, self, other => do let o ← toBigInteger other; toPyInt (← self.xor o)            -- 293-297

/-- Python's `l op r`; two `int`s do not reach the bindings. -/
def pyEval (op : PyOp) : PyVal → PyVal → Option (Res (BigInt ⊕ Int))
  | .big a, .big b => some (do .ok (.inl (← pyMethod op a b)))
  | .big a, .int n => some (do .ok (.inl (← pyMethodInt op a n)))
  | .int n, .big b => some (do .ok (.inr (← pyReflected op b n)))
  | .int _, .int _ => none

/-- Python's `l ** r`, python-bindings.cpp:199-212. -/
def pyPow : PyVal → PyVal → Option (Res (BigInt ⊕ Int))
  | .big a, .big b => some (do let n ← b.toInt32; .ok (.inl (← Long32.pow a n)))
  | .big a, .int k => some (
      match castInt k with
      | .throw .castError => .throw .overflowError
      | r => do let n ← r; .ok (.inl (← Long32.pow a n)))
  | .int k, .big b => some (do
      let a ← toBigInteger k
      let n ← b.toInt32
      .ok (.inr (← toPyInt (← Long32.pow a n))))
  | .int _, .int _ => none

/-- Python's `pow(base, exp, modulus)`, python-bindings.cpp:213-221; at most one argument is an `int`, and not `base`. -/
def pyPowMod : PyVal → PyVal → PyVal → Option (Res BigInt)
  | .big a, .big e, .big m => some (Long32.modPow a e m)
  | .big a, .int e, .big m => some (do Long32.modPow a (← toBigInteger e) m)
  | .big a, .big e, .int m => some (do Long32.modPow a e (← toBigInteger m))
  | _, _, _ => none

/-- python-bindings.cpp:301 `~self`. -/
def pyInvert (a : BigInt) : Res BigInt := Long32.compl a

/-- python-bindings.cpp:342 `get_bit_Length`. -/
def pyGetBitLength (a : BigInt) : Res Nat := Long32.bitLength a

end Long32
end BigIntegerCpp
