import Verif.Model.Accessors
import Verif.Props.Arith
import Verif.Props.Basic
/-
C54: the representation accessors `sign_internal()` and `get_bits()`, and the constants.
-/
set_option linter.unusedSectionVars false
namespace BigIntegerCpp
open Samples
variable [Cfg]

/-- What the two accessors return: the value itself and no words for `|x| < 2^31`; otherwise the
sign and the words of the magnitude without leading zeros. -/
theorem C54_accessors (a : BigInt) (x : Int) (ha : a.Denotes x) :
    (|x| < 2 ^ 31 → a.signInternal = x ∧ a.getBits = []) ∧
    (2 ^ 31 ≤ |x| → a.signInternal = (if x < 0 then -1 else 1) ∧ WordsOk a.getBits ∧ (val a.getBits : Int) = |x| ∧
      ∃ w, a.getBits.getLast? = some w ∧ w ≠ 0) := by
  unfold BigInt.signInternal BigInt.getBits
  rcases ha.shape with ⟨rfl, h1, h2⟩ | ⟨s, xs, rfl, hs, hne, hw, ht, hv, rfl⟩
  · refine ⟨fun _ => ⟨rfl, rfl⟩, fun h => ?_⟩
    have e := Int.abs_eq_natAbs x
    omega
  · have e : |s * (val xs : Int)| = val xs := by
      rw [Int.abs_eq_natAbs, natAbs_unit_mul hs]
    rw [e]
    refine ⟨fun h => ?_, fun _ => ⟨?_, hw, rfl, xs.getLast hne, List.getLast?_eq_some_getLast hne, fun h => ht ?_⟩⟩
    · norm_num at h; omega
    · rcases hs with rfl | rfl
      · rw [if_neg (by omega)]
      · rw [if_pos (by omega)]
    · rw [List.getLast?_eq_some_getLast hne, h]

/-- `BigInteger(a.sign_internal(), a.get_bits()) == a`, in every build. -/
theorem C54_rebuild (a : BigInt) (ha : a.Valid) : ofParts a.signInternal a.getBits = .ok a := by
  obtain ⟨b, h1, h2⟩ := ofParts_spec (s := a.sign) (ws := a.bits) (z := a.toInt) ⟨ha, rfl⟩
  exact h1.trans (congrArg _ (h2.unique ⟨ha, rfl⟩))

/-- Two values are equal exactly if both accessors agree. -/
theorem C54_determine (a b : BigInt) (x y : Int) (ha : a.Denotes x) (hb : b.Denotes y) :
    (a.signInternal = b.signInternal ∧ a.getBits = b.getBits) ↔ x = y := by
  constructor
  · rintro ⟨h1, h2⟩
    have e : a = b := by obtain ⟨_, _⟩ := a; obtain ⟨_, _⟩ := b; exact congrArg₂ BigInt.mk h1 h2
    subst e
    exact ha.2.symm.trans hb.2
  · rintro rfl
    rw [ha.unique hb]; exact ⟨rfl, rfl⟩

/-- `zero()`, `one()`, `minus_one()`. -/
theorem C54_constants : Returns BigInt.zeroFn 0 ∧ Returns BigInt.oneFn 1 ∧ Returns BigInt.minusOneFn (-1) :=
  ⟨C01_int32 0 (by decide), C01_int32 1 (by decide), C01_int32 (-1) (by decide)⟩

/-- `Compare(a, b)`. -/
theorem C54_compare (a b : BigInt) (x y : Int) (ha : a.Denotes x) (hb : b.Denotes y) (fa : a.Fits) (fb : b.Fits) :
    ∃ c, a.compareFn b = .ok c ∧ (c < 0 ↔ x < y) ∧ (c = 0 ↔ x = y) ∧ (c > 0 ↔ x > y) :=
  C03_compare_to a b x y ha hb fa fb

/-- The named forms of the operators, and the default constructor. -/
theorem C54_named (a b : BigInt) (x y : Int) (ha : a.Denotes x) (hb : b.Denotes y) (fa : a.Fits) (fb : b.Fits) :
    BigInt.default.Denotes 0 ∧ Returns (a.addFn b) (x + y) ∧ Returns (a.subtractFn b) (x - y) ∧
    (a.bits.length + b.bits.length < 2 ^ 31 - 1 → Returns (a.multiplyFn b) (x * y)) ∧
    (y ≠ 0 → Returns (a.divideFn b) (x.tdiv y) ∧ Returns (a.remainderFn b) (x.tmod y)) ∧
    (y = 0 → a.divideFn b = .throw .divideByZero ∧ a.remainderFn b = .throw .divideByZero) := by
  refine ⟨BigInt.denotes_small (by decide) (by decide), ?_, C06_subtract a b x y ha hb fa fb, C09_multiply a b x y ha hb,
    fun h => ⟨C10_divide a b x y ha hb h fa, C11_remainder a b x y ha hb h fa⟩, ?_⟩
  · unfold BigInt.addFn
    rw [assertValid_ok ha.1]
    exact C05_add a b x y ha hb fa fb
  · rintro rfl
    have := C12_divide_by_zero a b x ha hb fa
    exact ⟨this.1, this.2.1⟩
example : Returns (neg3.addFn pos2) (-18446744103774322693 + 38654705667) :=
  (C54_named _ _ _ _ neg3_denotes pos2_denotes neg3_fits pos2_fits).2.1

example : neg3.signInternal = -1 ∧ WordsOk neg3.getBits ∧ (val neg3.getBits : Int) = |(-18446744103774322693)| ∧
    ∃ w, neg3.getBits.getLast? = some w ∧ w ≠ 0 := (C54_accessors _ _ neg3_denotes).2 (by decide)
example : ofParts neg3.signInternal neg3.getBits = .ok neg3 := C54_rebuild _ neg3_denotes.1

/-! ### instances of the remaining theorems -/

example : ¬ (neg3.signInternal = pos2.signInternal ∧ neg3.getBits = pos2.getBits) := fun h =>
  absurd ((C54_determine _ _ _ _ neg3_denotes pos2_denotes).1 h) (by decide)
example : ∃ c, neg3.compareFn pos2 = .ok c ∧ (c < 0 ↔ (-18446744103774322693 : Int) < 38654705667) ∧
    (c = 0 ↔ (-18446744103774322693 : Int) = 38654705667) ∧ (c > 0 ↔ (-18446744103774322693 : Int) > 38654705667) :=
  C54_compare _ _ _ _ neg3_denotes pos2_denotes neg3_fits pos2_fits

end BigIntegerCpp
