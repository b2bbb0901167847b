import Verif.Lemmas.Words
import Verif.Lemmas.GcdCount
import Verif.Lemmas.PowProps
import Verif.Props.Samples
/-
C50, C51: the public functions that take arrays of words: `add` and `subtract` with the signs as
separate arguments, `greatest_common_divisor` of two arrays.
-/
set_option linter.unusedSectionVars false
namespace BigIntegerCpp
open Samples
variable [Cfg]

/-! ### C50 `add(lhs, lhsSign, rhs, rhsSign)`, `subtract(lhs, lhsSign, rhs, rhsSign)` -/

/-- Exactly what `add` computes, on the words and signs of any two values. -/
theorem C50_add_computes (a b : BigInt) (x y : Int) (ha : a.Denotes x) (hb : b.Denotes y) (fa : a.Fits) (fb : b.Fits) :
    Returns (addSigned a.bits a.sign b.bits b.sign)
      (if |x| < 2 ^ 31 ∧ |y| < 2 ^ 31 then x + y else if x < 0 then -(|x| + |y|) else |x| + |y|) := by
  by_cases h : |x| < 2 ^ 31 ∧ |y| < 2 ^ 31
  · rw [if_pos h]
    obtain ⟨s, xs⟩ := a
    obtain ⟨t, ys⟩ := b
    obtain rfl := ha.bits_nil.2 h.1
    obtain rfl := hb.bits_nil.2 h.2
    have e1 : s = x := by have := ha.2; simpa [BigInt.toInt] using this
    have e2 : t = y := by have := hb.2; simpa [BigInt.toInt] using this
    subst e1 e2
    obtain ⟨h1, h2⟩ := h
    rw [abs_lt] at h1 h2
    norm_num at h1 h2
    simp only [addSigned, and_self, if_true]
    rw [show long (s + t) = .ok (s + t) from if_pos ⟨by omega, by omega⟩, Res.ok_bind]
    exact ofInt64_spec (by omega) (by omega)
  · rw [if_neg h, Int.abs_eq_natAbs, Int.abs_eq_natAbs]
    refine addSigned_exact ha hb ?_ fa fb
    by_contra hc
    simp only [not_or, not_not, ne_eq] at hc
    exact h ⟨ha.bits_nil.1 hc.1, hb.bits_nil.1 hc.2⟩

/-- Exactly what `subtract` computes. -/
theorem C50_subtract_computes (a b : BigInt) (x y : Int) (ha : a.Denotes x) (hb : b.Denotes y) (fa : a.Fits) (fb : b.Fits) :
    Returns (subtractSigned a.bits a.sign b.bits b.sign)
      (if |x| < 2 ^ 31 ∧ |y| < 2 ^ 31 then x - y else if x < 0 then -(|x| - |y|) else |x| - |y|) := by
  by_cases h : |x| < 2 ^ 31 ∧ |y| < 2 ^ 31
  · rw [if_pos h]
    obtain ⟨s, xs⟩ := a
    obtain ⟨t, ys⟩ := b
    obtain rfl := ha.bits_nil.2 h.1
    obtain rfl := hb.bits_nil.2 h.2
    have e1 : s = x := by have := ha.2; simpa [BigInt.toInt] using this
    have e2 : t = y := by have := hb.2; simpa [BigInt.toInt] using this
    subst e1 e2
    obtain ⟨h1, h2⟩ := h
    rw [abs_lt] at h1 h2
    norm_num at h1 h2
    simp only [subtractSigned, and_self, if_true]
    rw [show long (s - t) = .ok (s - t) from if_pos ⟨by omega, by omega⟩, Res.ok_bind]
    exact ofInt64_spec (by omega) (by omega)
  · rw [if_neg h, Int.abs_eq_natAbs, Int.abs_eq_natAbs]
    refine subtractSigned_exact ha hb ?_ (Nat.lt_succ_of_lt fa) (Nat.lt_succ_of_lt fb)
    by_contra hc
    simp only [not_or, not_not, ne_eq] at hc
    exact h ⟨ha.bits_nil.1 hc.1, hb.bits_nil.1 hc.2⟩

private theorem returns_iff {r : Res BigInt} {z w : Int} (h : Returns r z) : Returns r w ↔ z = w := by
  constructor
  · rintro ⟨b, e, hb⟩
    obtain ⟨c, e', hc⟩ := h
    rw [e] at e'
    obtain rfl := Res.ok.inj e'
    exact hc.2.symm.trans hb.2
  · rintro rfl; exact h

/-- C50, partial: the full statement has the right side of `↔` only.  `add` is right exactly on the
pairs on the left side. -/
theorem C50_add_partial (a b : BigInt) (x y : Int) (ha : a.Denotes x) (hb : b.Denotes y) (fa : a.Fits) (fb : b.Fits) :
    ((|x| < 2 ^ 31 ∧ |y| < 2 ^ 31) ∨ (0 ≤ x ∧ 0 ≤ y) ∨ (x < 0 ∧ y ≤ 0)) ↔
      Returns (addSigned a.bits a.sign b.bits b.sign) (x + y) := by
  rw [returns_iff (C50_add_computes a b x y ha hb fa fb)]
  by_cases h : |x| < 2 ^ 31 ∧ |y| < 2 ^ 31
  · rw [if_pos h]; tauto
  · rw [if_neg h]
    simp only [h, false_or]
    rw [Int.abs_eq_natAbs, Int.abs_eq_natAbs]
    by_cases h0 : x < 0
    · rw [if_pos h0]; omega
    · rw [if_neg h0]; omega

/-- The same for `subtract`. -/
theorem C50_subtract_partial (a b : BigInt) (x y : Int) (ha : a.Denotes x) (hb : b.Denotes y) (fa : a.Fits) (fb : b.Fits) :
    ((|x| < 2 ^ 31 ∧ |y| < 2 ^ 31) ∨ (0 ≤ x ∧ 0 ≤ y) ∨ (x < 0 ∧ y ≤ 0)) ↔
      Returns (subtractSigned a.bits a.sign b.bits b.sign) (x - y) := by
  rw [returns_iff (C50_subtract_computes a b x y ha hb fa fb)]
  by_cases h : |x| < 2 ^ 31 ∧ |y| < 2 ^ 31
  · rw [if_pos h]; tauto
  · rw [if_neg h]
    simp only [h, false_or]
    rw [Int.abs_eq_natAbs, Int.abs_eq_natAbs]
    by_cases h0 : x < 0
    · rw [if_pos h0]; omega
    · rw [if_neg h0]; omega

example : Returns (addSigned neg3.bits neg3.sign small.bits small.sign) (-18446744103774322693 + -42) :=
  (C50_add_partial _ _ _ _ neg3_denotes small_denotes neg3_fits small_fits).1 (.inr (.inr (by decide)))
example : Returns (subtractSigned neg3.bits neg3.sign small.bits small.sign) (-18446744103774322693 - -42) :=
  (C50_subtract_partial _ _ _ _ neg3_denotes small_denotes neg3_fits small_fits).1 (.inr (.inr (by decide)))

/-- C50 as stated is false: `2^32 * 9 + 3` and `-42` give the sum of the magnitudes. -/
theorem C50_refuted : ∃ (a b : BigInt) (x y : Int), a.Denotes x ∧ b.Denotes y ∧
    ¬ Returns (addSigned a.bits a.sign b.bits b.sign) (x + y) ∧
    ¬ Returns (subtractSigned a.bits a.sign b.bits b.sign) (x - y) := by
  refine ⟨pos2, small, _, _, pos2_denotes, small_denotes, ?_, ?_⟩
  · rw [← C50_add_partial _ _ _ _ pos2_denotes small_denotes pos2_fits small_fits]; decide
  · rw [← C50_subtract_partial _ _ _ _ pos2_denotes small_denotes pos2_fits small_fits]; decide

/-! ### C51 `greatest_common_divisor(leftBits, rightBits)` -/

/-- C51, partial: the full statement has neither `hle` (it is asserted, `C51_order_checked`) nor `hE`
(where it fails, see C19, C20). -/
theorem C51_gcd_words_partial (xs ys : List Nat) (hx : WordsOk xs) (hy : WordsOk ys) (htx : xs.getLast? ≠ some 0)
    (hty : ys.getLast? ≠ some 0) (hne : ys ≠ []) (hl : xs.length < 2 ^ 31) (hle : val ys ≤ val xs)
    (hE : EuclidOnly (val xs) (val ys)) (n : Nat) (hn : val ys < 2 ^ n) (fuel : Nat) (hf : 2 * n - 126 ≤ fuel) :
    Returns (gcdBits fuel xs ys) (Nat.gcd (val xs) (val ys)) :=
  gcdBits_spec hx hy htx hty hne hl hle hE fun h64 => by
    have h1 := euclidCount_le (val xs) hn
    have h2 := (Nat.pow_lt_pow_iff_right (by decide)).1 (lt_of_le_of_lt h64 hn)
    omega

/-- Operands in the wrong order stop a debug build. -/
theorem C51_order_checked (xs ys : List Nat) (hx : WordsOk xs) (hy : WordsOk ys) (htx : xs.getLast? ≠ some 0)
    (hty : ys.getLast? ≠ some 0) (hlt : val xs < val ys) (hd : Cfg.ndebug = false) (fuel : Nat) :
    gcdBits fuel xs ys = .abort := by
  unfold gcdBits
  rw [compareWords_spec hx hy htx hty, if_pos hlt]
  simp [cassert, hd]

example : Returns (gcdBits 0 [5, 7, 1] [3, 9]) (Nat.gcd 18446744103774322693 38654705667) :=
  C51_gcd_words_partial [5, 7, 1] [3, 9] (by decide) (by decide) (by decide) (by decide) (by decide) (by decide)
    (by decide) (.small _ _ (by decide)) 36 (by decide) _ (by decide)
/-- `2^160 + 1` and `2^100`. -/
example : Returns (gcdBits 76 [1, 0, 0, 0, 0, 1] [0, 0, 0, 16]) (Nat.gcd (2 ^ 160 + 1) (2 ^ 100)) :=
  C51_gcd_words_partial [1, 0, 0, 0, 0, 1] [0, 0, 0, 16] (by decide) (by decide) (by decide) (by decide) (by decide) (by decide)
    (by decide) (.step _ _ (by decide) (by unfold EuclidStep; decide +kernel) (.small _ _ (by decide))) 101 (by decide) _ (by decide)
example (hd : Cfg.ndebug = false) (fuel : Nat) : gcdBits fuel [3, 9] [5, 7, 1] = .abort :=
  C51_order_checked [3, 9] [5, 7, 1] (by decide) (by decide) (by decide) (by decide) (by decide) hd fuel

/-- C51 as stated is false, also for operands in order: `2^96` and `3 * 2^94` give 3. -/
theorem C51_refuted : ∃ (xs ys : List Nat) (r : BigInt), WordsOk xs ∧ WordsOk ys ∧ val ys ≤ val xs ∧
    gcdBits 2 xs ys = .ok r ∧ ¬ r.Denotes (Nat.gcd (val xs) (val ys)) := by
  refine ⟨[0, 0, 0, 1], [0, 0, 3221225472], ⟨3, []⟩, by decide, by decide, by decide, ?_, ?_⟩
  · rename_i c
    obtain ⟨d, s⟩ := c
    cases d <;> cases s <;> decide +kernel
  · intro h
    exact absurd h.2 (by decide +kernel)

/-! ### instances of the remaining theorems -/

example : Returns (addSigned pos2.bits pos2.sign neg3.bits neg3.sign) (38654705667 + 18446744103774322693) :=
  C50_add_computes _ _ _ _ pos2_denotes neg3_denotes pos2_fits neg3_fits
example : Returns (subtractSigned pos2.bits pos2.sign neg3.bits neg3.sign) (38654705667 - 18446744103774322693) :=
  C50_subtract_computes _ _ _ _ pos2_denotes neg3_denotes pos2_fits neg3_fits

end BigIntegerCpp
