import Verif.Model.Accessors
import Verif.Model.Bytes
import Verif.Model.Convert
import Verif.Model.Text
import Verif.Model.Python
/-
Chains of conversions: a value that is sent through the forms in which the library can give it away
and take it back.  The chain is user code and has no counterpart in the repository; what it calls is
the model of the repository's functions, cited at their definitions.
-/
namespace BigIntegerCpp
variable [Cfg]

/-- A form in which a value can leave the library and come back. -/
inductive Form
  /-- `BigInteger(a.to_byte_array(isUnsigned, isBigEndian), isUnsigned, isBigEndian)` -/
  | bytes (isUnsigned isBigEndian : Bool)
  /-- `BigInteger(a.sign_internal(), a.get_bits())` -/
  | words
  /-- `BigInteger::parse(a.to_string())` -/
  | text
  /-- `BigInteger((int32_t) a)` -/
  | int32
  /-- `BigInteger((uint32_t) a)` -/
  | uint32
  /-- `BigInteger((int64_t) a)` -/
  | int64
  /-- `BigInteger((uint64_t) a)` -/
  | uint64
  /-- `BigInteger((double) a)` -/
  | double
  /-- in Python, `BigInteger(int(a))` -/
  | python
  deriving DecidableEq, Repr

/-- There and back through one form: src/BigInteger.cpp (`to_byte_array`, `BigInteger(byte_array, bool,
bool)`, `sign_internal`, `get_bits`, `BigInteger(int, uint_array)`, `to_string`, `parse`, the conversion
operators and the constructors from numbers) and bindings/python/python-bindings.cpp (`to_py_int`,
`to_biginteger`). -/
def Form.through : Form → BigInt → Res BigInt
  | bytes u be, a => a.toBytes u be >>= fun v => ofBytes v u be
  | words, a => ofParts a.signInternal a.getBits
  | text, a => a.toStr >>= fun s => BigInt.parse s
  | int32, a => a.toInt32 >>= fun z => ofInt32 z
  | uint32, a => a.toUInt32 >>= fun n => ofUInt32 n
  | int64, a => a.toLong >>= fun z => ofInt64 z
  | uint64, a => a.toULong >>= fun n => ofUInt64 n
  | double, a => a.toDouble >>= fun d => ofDouble d
  | python, a => toPyInt a >>= fun z => toBigInteger ⟨z, false, by simp⟩

/-- Through one form after the other. -/
def chain : List Form → BigInt → Res BigInt
  | [], a => .ok a
  | f :: fs, a => f.through a >>= fun b => chain fs b

end BigIntegerCpp
