import Verif.Spec
import Verif.Model.Gcd
import Verif.Model.Text
import Verif.Model.Convert
import Verif.Model.Bytes
import Verif.Model.Program
import Verif.Model.Python
/-
Specification for C02: the objects a client of the public interface can come to hold.
-/
namespace BigIntegerCpp
variable [Cfg]

/-- `Made a`: some finite chain of public calls, each of which returned normally, produced `a`.
Arguments of machine types are in the range of the type.  There are no conditions on sizes, and
none that keep clear of known faults. -/
inductive Made : BigInt → Prop
  | zero : Made zeroInt
  | one : Made oneInt
  | minusOne : Made minusOneInt
  | int32 {n : Int} {r} : IntRange n → ofInt32 n = .ok r → Made r
  | uint32 {n : Nat} {r} : n < 2 ^ 32 → ofUInt32 n = .ok r → Made r
  | int64 {n : Int} {r} : LongRange n → ofInt64 n = .ok r → Made r
  | uint64 {n : Nat} {r} : n < 2 ^ 64 → ofUInt64 n = .ok r → Made r
  | double {d : Nat} {r} : d < 2 ^ 64 → ofDouble d = .ok r → Made r
  | magnitude {ws : List Nat} {negative : Bool} {r} : WordsOk ws → ofMagnitude ws negative = .ok r → Made r
  /-- `BigInteger(int, uint_array)`, in a build with assertions -/
  | parts {n : Int} {ws : List Nat} {r} : Cfg.ndebug = false → IntRange n → WordsOk ws → ofParts n ws = .ok r → Made r
  | bytes {bs : List Nat} {isUnsigned isBigEndian : Bool} {r} : BytesOk bs →
      ofBytes bs isUnsigned isBigEndian = .ok r → Made r
  | parse {s : List Char} {r} : BigInt.parse s = .ok r → Made r
  | tryParse {s : List Char} {a f r} : Made a → BigInt.tryParse s a = .ok (f, r) → Made r
  /-- the Python constructor -/
  | python {v : PyInt} {r} : toBigInteger v = .ok r → Made r
  /-- what is left of an object that something was moved out of -/
  | moved {a} : Made a → Made a.movedFrom
  | binary {op : BinOp} {a b r} : Made a → Made b → op.apply a b = .ok r → Made r
  | unary {op : UnOp} {a r} : Made a → op.apply a = .ok r → Made r
  | quotient {a b q r} : Made a → Made b → a.divRem b = .ok (q, r) → Made q
  | remainder {a b q r} : Made a → Made b → a.divRem b = .ok (q, r) → Made r
  | max {a b r} : Made a → Made b → a.max b = .ok r → Made r
  | min {a b r} : Made a → Made b → a.min b = .ok r → Made r
  | inc {a r} : Made a → a.inc = .ok r → Made r
  | dec {a r} : Made a → a.dec = .ok r → Made r
  | shl {a r} {n : Int} : Made a → IntRange n → a.shl n = .ok r → Made r
  | shr {a r} {n : Int} : Made a → IntRange n → a.shr n = .ok r → Made r
  | pow {a r} {n : Int} : Made a → IntRange n → a.pow n = .ok r → Made r
  | modPow {a e m r} : Made a → Made e → Made m → a.modPow e m = .ok r → Made r
  | gcd {fuel : Nat} {a b r} : Made a → Made b → BigInt.gcd fuel a b = .ok r → Made r
  /-- the public overload on magnitudes -/
  | gcdBits {fuel : Nat} {x y : List Nat} {r} : WordsOk x → WordsOk y → gcdBits fuel x y = .ok r → Made r
  /-- the public members `add`, `subtract` on magnitudes and signs -/
  | addSigned {x y : List Nat} {s t : Int} {r} : addSigned x s y t = .ok r → Made r
  | subtractSigned {x y : List Nat} {s t : Int} {r} : subtractSigned x s y t = .ok r → Made r

/-- Every integer literal that an object is made from is of the right C++ type. -/
def Prog.LiteralsOk : Prog → Prop
  | skip => True
  | stmt s => (∀ x n, s = .const x n → IntRange n) ∧ (∀ x n, s = .long x n → LongRange n) ∧
      ∀ x n, s = .ulong x n → n < 2 ^ 64
  | seq p q => p.LiteralsOk ∧ q.LiteralsOk
  | ifThen _ p q => p.LiteralsOk ∧ q.LiteralsOk
  | whileDo _ p => p.LiteralsOk
  | attempt p => p.LiteralsOk

end BigIntegerCpp
