import Verif.Spec
/-
What goes wrong where `long` has 32 bits, in terms of the numbers (C86).
-/
namespace BigIntegerCpp

/-- The value is kept in an `int`. -/
def IntSized (x : Int) : Prop := -2 ^ 31 < x ∧ x < 2 ^ 31

/-- Adding the lowest words of the two numbers gives a carry, and the words next to them add up to all ones, so that
the carry should travel on. -/
def CarryLost (x y : Nat) : Prop :=
  2 ^ 32 ≤ x % 2 ^ 32 + y % 2 ^ 32 ∧ (x / 2 ^ 32 + y / 2 ^ 32) % 2 ^ 32 = 2 ^ 32 - 1

instance (x : Int) : Decidable (IntSized x) := by unfold IntSized; infer_instance
instance (x y : Nat) : Decidable (CarryLost x y) := by unfold CarryLost; infer_instance

/-- The digits of a text: those after the sign, if there is one, up to the first other character. -/
def textDigits : List Char → List Char
  | '-' :: cs => cs.takeWhile Char.isDigit
  | '+' :: cs => cs.takeWhile Char.isDigit
  | cs => cs.takeWhile Char.isDigit

/-- The number read so far is multiplied by ten and the next digit added; at some digit this addition loses the carry. -/
def LosesDigit (ds : List Char) : Prop :=
  ∃ pre d post, ds = pre ++ d :: post ∧ CarryLost (10 * Nat.ofDigitChars 10 pre 0) (d.toNat - '0'.toNat)

/-- The products taken when `v ^ n` is computed by repeated squaring, from the lowest bit of `n` up: the last squaring is
of `v ^ 2^(L-1)`, where `2^L` is the highest power of two in `n`, and the last product is of `v ^ (n - 2^L)` and
`v ^ 2^L`.  No product has two factors of 993 bits or more. -/
def ShortFactors (v n : Nat) : Prop := n < 2 ∨ v ^ 2 ^ (n.log2 - 1) < 2 ^ 992 ∧ v ^ (n - 2 ^ n.log2) < 2 ^ 992

instance (v n : Nat) : Decidable (ShortFactors v n) := by unfold ShortFactors; infer_instance

end BigIntegerCpp
