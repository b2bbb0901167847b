import Verif.ProgramSpec
import Verif.Model.Chains
/-
What chains of conversions should do to the integer.  Only the names of the forms are taken from the
model.
-/
namespace BigIntegerCpp

/-- `x` without all but the 53 leading bits of its magnitude. -/
def truncated (x : Int) : Int := if x < 0 then -(keepBits 53 x.natAbs : Int) else keepBits 53 x.natAbs

/-- The integer that comes back through a form, or the exception: a form that cannot hold the integer
refuses it, and a `double` keeps its 53 leading bits. -/
def Form.meaning : Form → Int → Except Exn Int
  | bytes u _, x => if u = true ∧ x < 0 then .error .runtimeError else .ok x
  | words, x => .ok x
  | text, x => .ok x
  | int32, x => if -2 ^ 31 ≤ x ∧ x < 2 ^ 31 then .ok x else .error .overflowError
  | uint32, x => if 0 ≤ x ∧ x < 2 ^ 32 then .ok x else .error .overflowError
  | int64, x => if -2 ^ 63 ≤ x ∧ x < 2 ^ 63 then .ok x else .error .overflowError
  | uint64, x => if 0 ≤ x ∧ x < 2 ^ 64 then .ok x else .error .overflowError
  | double, x => if |x| < 2 ^ 1024 then .ok (truncated x) else .error .overflowError
  | python, x => .ok x

/-- Where the library does something else: the text of some negative numbers (C30), and the least
`int` (C34) and `long` (C01, C34). -/
def Form.Trips : Form → Int → Prop
  | text, x => TextMisfires x
  | int32, x => x = -2 ^ 31
  | int64, x => x = -2 ^ 63
  | _, _ => False

/-- What it does then. -/
def Form.fault : Form → UB
  | text => .outOfBounds
  | _ => .signedOverflow

/-- A chain on integers: the first exception ends it. -/
def chainMeaning : List Form → Int → Except Exn Int
  | [], x => .ok x
  | f :: fs, x =>
    match f.meaning x with
    | .ok y => chainMeaning fs y
    | .error e => .error e

/-- Some form of the chain trips on the integer that reaches it. -/
def ChainTrips : List Form → Int → Prop
  | [], _ => False
  | f :: fs, x => f.Trips x ∨ ∃ y, f.meaning x = .ok y ∧ ChainTrips fs y

/-- The first form that trips has this fault. -/
def ChainFault : List Form → Int → UB → Prop
  | [], _, _ => False
  | f :: fs, x, u => f.Trips x ∧ u = f.fault ∨ ¬ f.Trips x ∧ ∃ y, f.meaning x = .ok y ∧ ChainFault fs y u

/-- The outcome that was meant: an object that denotes the integer, or the exception. -/
def ComesBack (r : Res BigInt) : Except Exn Int → Prop
  | .ok z => Returns r z
  | .error e => r = .throw e

end BigIntegerCpp
