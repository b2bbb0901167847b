import Verif.Model.Calculator
import Verif.Spec
/- Vocabulary for what the unit tests test. -/
namespace BigIntegerCpp
variable [Cfg]

/-- The call returns an object that stands for `z`. -/
def Replies (o : Option (Res BigInt)) (z : Int) : Prop := ∃ r, o = some (.ok r) ∧ r.Denotes z
/-- The call returns an object that stands for `z` and stores one that stands for `w`. -/
def RepliesTwo (o : Option (Res (BigInt × BigInt))) (z w : Int) : Prop := ∃ r s, o = some (.ok (r, s)) ∧ r.Denotes z ∧ s.Denotes w
/-- The library and the reference implementation return the same. -/
def Agree {α : Type} (o p : Option (Res α)) : Prop := ∃ c, o = some (.ok c) ∧ p = some (.ok c)

namespace Calculator

/-- The bytes the calculator reads from the text of these bytes: a blank becomes two zeros. -/
def readBack (bytes : List Nat) : List Nat := bytes.flatMap fun b => if b = 32 then [0, 0] else [b]
/-- The number the calculator reads from the text of these bytes. -/
def numberRead (bytes : List Nat) : Int := bytesValue false false (readBack bytes)
/-- An array of bytes of moderate size. -/
def Bytes (bytes : List Nat) : Prop := BytesOk bytes ∧ bytes.length < 2 ^ 26
/-- `to_string` gives the decimal text of this number (C30). -/
def Printable (z : Int) : Prop := ¬ TextMisfires z ∧ z.natAbs < 2 ^ (32 * 214748364)

end Calculator
end BigIntegerCpp
