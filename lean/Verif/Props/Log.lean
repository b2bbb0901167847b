import Verif.Lemmas.Log
import Verif.Lemmas.PowProps
import Verif.Props.Samples
/-
C46: logarithms.  `Real.log` and `Real.logb` are Mathlib's; LogSpec.lean says what is assumed of
the floating-point arithmetic.
-/
namespace BigIntegerCpp
open Samples
variable [Cfg]

/-! ### special values, whatever the arithmetic rounds to -/
section
variable [Fpu]

theorem C46_negative_value (a : BigInt) (x : Int) (b : Dbl) (ha : a.Denotes x) (hx : x < 0) : a.log b = .ok .nan := by
  unfold BigInt.log
  rw [if_pos (.inl (ha.sign_neg.2 hx))]

theorem C46_base_one (a : BigInt) : a.log (.fin 1) = .ok .nan := by
  unfold BigInt.log
  rw [if_pos (.inr rfl)]

theorem C46_base_infinity (a : BigInt) (x : Int) (ha : a.Denotes x) (hx : 0 ≤ x) :
    a.log .pinf = .ok (if x = 1 then .fin 0 else .nan) := by
  have := ha.sign_neg
  unfold BigInt.log
  rw [if_neg (by simp; omega), if_pos rfl, BigInt.isOne_spec ha, Res.ok_bind]
  simp

theorem C46_base_zero (a : BigInt) (x : Int) (ha : a.Denotes x) (hx : x ≠ 1) : a.log (.fin 0) = .ok .nan := by
  unfold BigInt.log
  by_cases h : a.sign < 0 ∨ Dbl.fin 0 = .fin 1
  · rw [if_pos h]
  · rw [if_neg h, if_neg (by simp), if_pos rfl, BigInt.isOne_spec ha, Res.ok_bind, Res.ok_bind]
    simp [hx]

/-- `log(1, 0)` is zero. -/
theorem C46_one_base_zero (a : BigInt) (ha : a.Denotes 1) : a.log (.fin 0) = .ok (.fin 0) := by
  rw [BigInt.log_small ha (ha.bits_nil.2 (by norm_num)) (by decide) (by simp) (by simp) (.inr rfl)]
  simp [logWrapper, Dbl.log, Dbl.div, show ¬ (1 : ℝ) < 0 by norm_num]

/-- A base that is NaN, minus infinity or a negative number gives NaN. -/
theorem C46_bad_base (a : BigInt) (x : Int) (b : Dbl) (ha : a.Denotes x) (hl : a.Fits)
    (hb : b = .nan ∨ b = .ninf ∨ ∃ y : ℝ, y < 0 ∧ b = .fin y) : a.log b = .ok .nan := by
  by_cases hx : x < 0
  · exact C46_negative_value a x b ha hx
  have h1 : b ≠ .fin 1 := by
    rcases hb with rfl | rfl | ⟨y, hy, rfl⟩
    · simp
    · simp
    · simp; linarith
  have h2 : b ≠ .pinf := by rcases hb with rfl | rfl | ⟨y, hy, rfl⟩ <;> simp
  have h0 : b ≠ .fin 0 := by
    rcases hb with rfl | rfl | ⟨y, hy, rfl⟩
    · simp
    · simp
    · simp; linarith
  have key : ∀ u : ℝ, logWrapper (.fin u) b = .nan := by
    intro u
    unfold logWrapper
    rcases hb with rfl | rfl | ⟨y, hy, rfl⟩
    · simp
    · simp only [reduceCtorEq, if_false, or_true, and_true]
      split_ifs
      · rfl
      · simp only [Dbl.log]
        split_ifs <;> rfl
    · simp only [reduceCtorEq, if_false, or_false, h1, h0, and_false]
      simp only [Dbl.log, if_pos hy]
      split_ifs <;> rfl
  by_cases hbits : a.bits = []
  · rw [BigInt.log_small ha hbits (by omega) h1 h2 (.inl h0), key]
  · have hx0 : 0 < x := by
      rcases Int.lt_or_le 0 x with h | h
      · exact h
      · exfalso
        obtain rfl : x = 0 := by omega
        exact hbits (ha.bits_nil.2 (by norm_num))
    obtain ⟨X, L, -, -, -, -, -, -, h⟩ := BigInt.log_big ha (Nat.lt_succ_of_lt hl) hbits hx0 h1 h2 h0
    rw [h, key]
    rfl

/-- The logarithm of zero is infinite: negative for a base above one, positive for one below.  The
rounded logarithm of the base is assumed to have the right sign. -/
theorem C46_zero_value (a : BigInt) (b : ℝ) (ha : a.Denotes 0) (hb : 0 < b) (h1 : b ≠ 1) (hlg : Fpu.lg b < 0 ↔ b < 1) :
    a.log (.fin b) = .ok (if b < 1 then .pinf else .ninf) := by
  rw [BigInt.log_small ha (ha.bits_nil.2 (by norm_num)) (by decide) (by simpa using h1) (by simp) (.inl (by simpa using hb.ne'))]
  simp only [logWrapper, reduceCtorEq, if_false, Dbl.fin.injEq, h1, hb.ne', or_false, and_false]
  simp only [Dbl.log, Int.cast_zero, lt_irrefl, if_false, if_true, if_neg (not_lt.2 hb.le), if_neg hb.ne', Dbl.div, Dbl.inf, ← not_lt, hlg]
  by_cases h : b < 1 <;> simp [h]
end

/-! ### accuracy -/

/-- In exact arithmetic the result is off by less than `2^-63/|ln b|`, for any size of the value. -/
theorem C46_exact (a : BigInt) (x : Int) (b : ℝ) (ha : a.Denotes x) (hl : a.Fits) (hx : 0 < x) (hb : 0 < b) (h1 : b ≠ 1) :
    let _ := Fpu.exact
    ∃ r, a.log (.fin b) = .ok (.fin r) ∧ |r - Real.logb b x| < 1 / 2 ^ 63 / |Real.log b| :=
  have := Fpu.exact
  BigInt.log_exact ha (Nat.lt_succ_of_lt hl) hx hb h1

/-- With rounding the relative error is at most 34 units, plus the same term. -/
theorem C46_rounded (fpu : Fpu) (ε : ℝ) (hf : fpu.Accurate ε) (he0 : 0 ≤ ε) (he : ε ≤ 1 / 2 ^ 10)
    (a : BigInt) (x : Int) (b : ℝ) (ha : a.Denotes x) (hl : a.Fits) (hx : 0 < x) (hb : 0 < b) (h1 : b ≠ 1)
    (hb1 : 1 / 2 ^ 60 ≤ |Real.log b|) (hb2 : |Real.log b| ≤ 2 ^ 60) :
    ∃ r, a.log (.fin b) = .ok (.fin r) ∧ |r - Real.logb b x| ≤ 34 * ε * |Real.logb b x| + 1 / 2 ^ 63 / |Real.log b| :=
  BigInt.log_rounded hf he0 he ha (Nat.lt_succ_of_lt hl) hx hb h1 hb1 hb2

/-- `log10`. -/
theorem C46_log10 (fpu : Fpu) (ε : ℝ) (hf : fpu.Accurate ε) (he0 : 0 ≤ ε) (he : ε ≤ 1 / 2 ^ 10)
    (a : BigInt) (x : Int) (ha : a.Denotes x) (hl : a.Fits) (hx : 0 < x) :
    ∃ r, a.log10 = .ok (.fin r) ∧ |r - Real.logb 10 x| ≤ 34 * ε * |Real.logb 10 x| + 1 / 2 ^ 64 := by
  obtain ⟨t1, t2⟩ := log_two_bounds
  have l1 : 3 * Real.log 2 ≤ Real.log 10 := by
    have := Real.log_le_log (show (0 : ℝ) < 2 ^ 3 by norm_num) (show (2 : ℝ) ^ 3 ≤ 10 by norm_num)
    rwa [Real.log_pow] at this
  have l2 : Real.log 10 ≤ 4 * Real.log 2 := by
    have := Real.log_le_log (show (0 : ℝ) < 10 by norm_num) (show (10 : ℝ) ≤ 2 ^ 4 by norm_num)
    rwa [Real.log_pow] at this
  have e : |Real.log 10| = Real.log 10 := abs_of_pos (by linarith)
  obtain ⟨r, h1, h2⟩ := C46_rounded fpu ε hf he0 he a x 10 ha hl hx (by norm_num) (by norm_num)
    (by rw [e]; norm_num; linarith) (by rw [e]; norm_num; linarith)
  refine ⟨r, h1, h2.trans (add_le_add_right ?_ _)⟩
  rw [e, div_le_iff₀ (by linarith)]
  norm_num
  linarith

omit [Cfg] in
/-- The literal in the code against Euler's number. -/
private theorem near_e : |Real.log 2.7182818284590451 - 1| ≤ 1 / 10 ^ 16 := by
  have h := abs_le.1 Real.exp_one_near_20
  have hp : (0 : ℝ) < 2.7182818284590451 := by norm_num
  have h1 := Real.log_le_sub_one_of_pos (div_pos hp (Real.exp_pos 1))
  have h2 := Real.one_sub_inv_le_log_of_pos (div_pos hp (Real.exp_pos 1))
  rw [Real.log_div hp.ne' (Real.exp_pos 1).ne', Real.log_exp] at h1 h2
  have he : (2 : ℝ) ≤ Real.exp 1 := by linarith [Real.exp_one_gt_d9]
  have h3 : 2.7182818284590451 / Real.exp 1 - 1 ≤ 1 / 10 ^ 16 := by
    rw [sub_le_iff_le_add, div_le_iff₀ (by linarith)]
    norm_num at h ⊢
    linarith
  have h4 : -(1 / 10 ^ 16) ≤ 1 - (2.7182818284590451 / Real.exp 1)⁻¹ := by
    rw [inv_div, neg_le_sub_iff_le_add, div_le_iff₀ hp]
    norm_num at h ⊢
    linarith
  rw [abs_le]
  constructor <;> linarith

/-- `log` without a base is the natural logarithm. -/
theorem C46_ln (fpu : Fpu) (ε : ℝ) (hf : fpu.Accurate ε) (he0 : 0 ≤ ε) (he : ε ≤ 1 / 2 ^ 10)
    (a : BigInt) (x : Int) (ha : a.Denotes x) (hl : a.Fits) (hx : 0 < x) :
    ∃ r, a.ln = .ok (.fin r) ∧ |r - Real.log x| ≤ (40 * ε + 2 / 10 ^ 16) * Real.log x + 1 / 2 ^ 62 := by
  norm_num at he
  have hp : (0 : ℝ) < 2.7182818284590451 := by norm_num
  have nr : Near ε (Fpu.rnd 2.7182818284590451) 2.7182818284590451 :=
    .of_abs he0 (hf.rnd _ (normal_of (lo := 1) (hi := 4) (by rw [abs_of_pos hp]; norm_num) (by rw [abs_of_pos hp]; norm_num)
      (by norm_num) (by norm_num)))
  obtain ⟨t, ht, e⟩ := nr
  have ht' := abs_le.1 (ht.trans he)
  have htt := abs_le.1 ht
  have hb : 0 < Fpu.rnd 2.7182818284590451 := by rw [e]; exact mul_pos hp (by linarith)
  have hlog : Real.log (Fpu.rnd 2.7182818284590451) = Real.log 2.7182818284590451 + Real.log (1 + t) := by
    rw [e, Real.log_mul hp.ne' (by linarith)]
  have u1 : Real.log (1 + t) ≤ t := by linarith [Real.log_le_sub_one_of_pos (show 0 < 1 + t by linarith)]
  have u2 : 1 - (1 + t)⁻¹ ≤ Real.log (1 + t) := Real.one_sub_inv_le_log_of_pos (by linarith)
  have u3 : 1 - (1 + t)⁻¹ = t / (1 + t) := by field_simp [show 1 + t ≠ 0 by linarith]; ring
  have u4 : -(1.1 * ε) ≤ t / (1 + t) := by
    rw [le_div_iff₀ (by linarith)]
    nlinarith
  have n := abs_le.1 near_e
  have hB1 : |Real.log (Fpu.rnd 2.7182818284590451) - 1| ≤ 1.1 * ε + 1 / 10 ^ 16 := by
    rw [hlog, abs_le]
    constructor <;> linarith
  have hB2 := abs_le.1 hB1
  norm_num at hB2
  unfold BigInt.ln
  generalize Fpu.rnd 2.7182818284590451 = B at *
  have hpos : 0 < Real.log B := by linarith
  have h1 : B ≠ 1 := by
    rintro rfl
    rw [Real.log_one] at hpos
    exact lt_irrefl _ hpos
  have eB : |Real.log B| = Real.log B := abs_of_pos hpos
  obtain ⟨r, g1, g2⟩ := C46_rounded fpu ε hf he0 (by norm_num; linarith) a x B ha hl hx hb h1 (by rw [eB]; norm_num; linarith)
    (by rw [eB]; norm_num; linarith)
  have hx1 : 0 ≤ Real.log (x : ℝ) := Real.log_nonneg (by exact_mod_cast hx)
  have eq : r - Real.log x = (r - Real.logb B x) + (Real.logb B x - Real.log x) := by ring
  have k1 : |Real.logb B x - Real.log x| ≤ (1.2 * ε + 2 / 10 ^ 16) * Real.log x := by
    unfold Real.logb
    rw [show Real.log x / Real.log B - Real.log x = Real.log x * ((1 - Real.log B) / Real.log B) by field_simp, abs_mul,
      abs_of_nonneg hx1, mul_comm]
    refine mul_le_mul_of_nonneg_right ?_ hx1
    rw [abs_div, eB, div_le_iff₀ hpos, abs_le]
    norm_num
    constructor <;> nlinarith
  have k2 : |Real.logb B x| ≤ 1.1 * Real.log x := by
    unfold Real.logb
    rw [abs_div, eB, abs_of_nonneg hx1, div_le_iff₀ hpos]
    nlinarith
  have k3 : 1 / 2 ^ 63 / |Real.log B| ≤ 1 / 2 ^ 62 := by
    rw [eB, div_le_iff₀ hpos]
    norm_num
    linarith
  refine ⟨r, g1, ?_⟩
  rw [eq]
  refine (abs_add_le _ _).trans ((add_le_add g2 k1).trans ?_)
  have k4 : 34 * ε * |Real.logb B x| ≤ 34 * ε * (1.1 * Real.log x) := mul_le_mul_of_nonneg_left k2 (by linarith)
  nlinarith [mul_nonneg he0 hx1]

/-! ### the hypotheses can be met -/

/-- Exact arithmetic is accurate. -/
example : Fpu.exact.Accurate 0 := ⟨fun x _ => by simp [show Fpu.exact.rnd x = x from rfl],
  fun x _ => by simp [show Fpu.exact.lg x = Real.log x from rfl]⟩

example (ε : ℝ) (he : ε = 1 / 2 ^ 52) (fpu : Fpu) (hf : fpu.Accurate ε) : ∃ r, pos2.log10 = .ok (.fin r) ∧
    |r - Real.logb 10 (38654705667 : Int)| ≤ 34 * ε * |Real.logb 10 (38654705667 : Int)| + 1 / 2 ^ 64 :=
  C46_log10 fpu ε hf (by rw [he]; norm_num) (by rw [he]; norm_num) pos2 38654705667 pos2_denotes pos2_fits (by norm_num)

/-! ### instances of the remaining theorems -/

example [Fpu] : neg3.log (.fin 10) = .ok .nan ∧ pos2.log .pinf = .ok .nan ∧ pos2.log (.fin 0) = .ok .nan ∧ pos2.log (.fin (-2)) = .ok .nan :=
  ⟨C46_negative_value _ _ _ neg3_denotes (by decide), C46_base_infinity _ _ pos2_denotes (by decide), C46_base_zero _ _ pos2_denotes (by decide),
   C46_bad_base _ _ _ pos2_denotes pos2_fits (.inr (.inr ⟨-2, by norm_num, rfl⟩))⟩
example (fpu : Fpu) (hf : fpu.Accurate (1 / 2 ^ 52)) : ∃ r, pos2.ln = .ok (.fin r) ∧
    |r - Real.log (38654705667 : Int)| ≤ (40 * (1 / 2 ^ 52) + 2 / 10 ^ 16) * Real.log (38654705667 : Int) + 1 / 2 ^ 62 :=
  C46_ln fpu _ hf (by norm_num) (by norm_num) pos2 38654705667 pos2_denotes pos2_fits (by norm_num)

end BigIntegerCpp
