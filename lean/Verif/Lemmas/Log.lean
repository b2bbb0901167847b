import Verif.LogSpec
import Verif.Lemmas.Double
import Verif.Lemmas.Arith
import Mathlib.Analysis.SpecialFunctions.Log.Deriv
import Mathlib.Analysis.Complex.ExponentialBounds
set_option linter.unusedSectionVars false
set_option linter.unnecessarySeqFocus false
namespace BigIntegerCpp
open Classical
variable [Cfg] [Fpu]

namespace BigInt

/-- The value of `log` on numbers with words. -/
theorem log_big {a : BigInt} {x : Int} (ha : a.Denotes x) (hl : a.bits.length < 2147483648) (hb : a.bits ≠ []) (hx : 0 < x)
    {base : Dbl} (h1 : base ≠ .fin 1) (h2 : base ≠ .pinf) (h0 : base ≠ .fin 0) :
    ∃ X L : Nat, 2 ^ 63 ≤ X ∧ X < 2 ^ 64 ∧ 32 ≤ L ∧ L < 2 ^ 36 ∧ X * 2 ^ L ≤ x.toNat * 2 ^ 64 ∧ x.toNat * 2 ^ 64 < (X + 1) * 2 ^ L ∧
      a.log base = .ok ((logWrapper (.fin (Fpu.rnd X)) base).add
        ((Dbl.fin (Fpu.rnd (((L : Int) - 64 : Int) : ℝ))).div (logWrapper base (.fin 2)))) := by
  rcases ha.shape with ⟨rfl, h3, h4⟩ | ⟨s, xs, rfl, hs1, hne1, hw1, ht1, hv1, rfl⟩
  · exact absurd rfl hb
  simp only at hl hb
  have hvp : (0 : Int) < val xs := by
    have := val_pos_of_top hne1 ht1
    have h' : 0 < 𝔹 ^ (xs.length - 1) := Nat.pow_pos (by decide)
    omega
  obtain rfl : s = 1 := by
    rcases hs1 with h | h
    · exact h
    · subst h; omega
  obtain ⟨h, m, l, i1, i2, i3, hh, hh0, hm, hl3, hval⟩ := top_three hne1 hw1 ht1
  obtain ⟨k, hk, hk1, hk2⟩ := exists_log hh0 hh
  have hz := leadingZeros_eq hk1 hk2 hk
  have hn1 : 1 ≤ xs.length := List.length_pos_iff.2 hne1
  have hhz : h * 2 ^ (31 - k) < 4294967296 := by
    calc h * 2 ^ (31 - k) < 2 ^ (k + 1) * 2 ^ (31 - k) := Nat.mul_lt_mul_of_pos_right hk2 (Nat.pow_pos (by decide))
      _ = 2 ^ 32 := by rw [← pow_add]; congr 1; omega
      _ = 4294967296 := by norm_num
  have hman := toDouble_man (show 31 - k < 32 by omega) hhz hm hl3
  have htm : 2 ^ 63 ≤ (l + 𝔹 * (m + 𝔹 * h)) / 2 ^ (32 - (31 - k)) ∧
      (l + 𝔹 * (m + 𝔹 * h)) / 2 ^ (32 - (31 - k)) < 2 ^ (63 + 1) := by
    rw [Nat.le_div_iff_mul_le (Nat.pow_pos (by decide)), Nat.div_lt_iff_lt_mul (Nat.pow_pos (by decide)), ← pow_add, ← pow_add,
      show 63 + (32 - (31 - k)) = 64 + k by omega, show 63 + 1 + (32 - (31 - k)) = 64 + (k + 1) by omega,
      pow_add, pow_add 2 64]
    generalize 2 ^ k = P at *
    generalize 2 ^ (k + 1) = Q at *
    norm_num
    omega
  have hX : (l + 𝔹 * (m + 𝔹 * h)) / 2 ^ (32 - (31 - k)) = val xs * 2 ^ 64 / 2 ^ (32 * xs.length - (31 - k)) := by
    rw [hval, Nat.div_div_eq_div_mul, ← pow_add, show 32 * xs.length + (32 - (31 - k)) = 32 * xs.length - (31 - k) + 32 by omega,
      pow_add, show 96 = 64 + 32 by rfl, pow_add 2 64 32, ← Nat.mul_assoc, Nat.mul_div_mul_right _ _ (by norm_num)]
  rw [hX] at hman htm
  have hto : (1 * (val xs : Int)).toNat = val xs := by omega
  rw [hto]
  have hL : 32 ≤ 32 * xs.length - (31 - k) := by
    by_contra hc
    have h5 : val xs < 2 ^ (32 * xs.length - (31 - k)) := by
      have h6 := (Nat.div_lt_iff_lt_mul (Nat.pow_pos (by decide))).1 htm.2
      rw [show 63 + 1 = 64 by rfl, Nat.mul_comm] at h6
      exact Nat.lt_of_mul_lt_mul_left h6
    have h7 : 2 ^ (32 * xs.length - (31 - k)) ≤ 2 ^ 31 := Nat.pow_le_pow_right (by decide) (by omega)
    norm_num at h7
    omega
  refine ⟨_, 32 * xs.length - (31 - k), htm.1, htm.2, hL, by norm_num; omega, Nat.div_mul_le_self _ _, ?_, ?_⟩
  · have := Nat.lt_div_mul_add (a := val xs * 2 ^ 64) (Nat.pow_pos (by decide : 0 < 2) (n := 32 * xs.length - (31 - k)))
    rw [Nat.add_mul, Nat.one_mul]
    exact this
  · unfold log
    rw [if_neg (by simp [h1]), if_neg h2, if_neg h0, Res.ok_bind]
    simp only [Bool.false_eq_true, if_false, hne1]
    rw [i1, Res.ok_bind, i2, Res.ok_bind, i3, Res.ok_bind]
    unfold cbitHighZero32
    simp only [hz]
    rw [if_neg (by omega), hman]
    have hb' : i64 (u64sub (xs.length * 32) (31 - k)) = ((32 * xs.length - (31 - k) : Nat) : Int) := by
      have : u64sub (xs.length * 32) (31 - k) = 32 * xs.length - (31 - k) := by unfold u64sub u64i; omega
      rw [this]; unfold i64; omega
    rw [hb']
    have : long (((32 * xs.length - (31 - k) : Nat) : Int) - 64) = .ok (((32 * xs.length - (31 - k) : Nat) : Int) - 64) := by
      unfold long; rw [if_pos (by omega)]
    rw [this]
    rfl

/-- The value of `log` on numbers without words. -/
theorem log_small {a : BigInt} {x : Int} (ha : a.Denotes x) (hb : a.bits = []) (hx : 0 ≤ x)
    {base : Dbl} (h1 : base ≠ .fin 1) (h2 : base ≠ .pinf) (h0 : base ≠ .fin 0 ∨ x = 1) :
    a.log base = .ok (logWrapper (.fin x) base) := by
  rcases ha.shape with ⟨rfl, h3, h4⟩ | ⟨s, xs, rfl, hs1, hne1, -⟩
  · unfold log
    rw [if_neg (by simp [h1]; omega), if_neg h2]
    have : (if base = .fin 0 then (do Res.ok !(← BigInt.isOne ⟨x, []⟩)) else Res.ok false) = .ok false := by
      by_cases h : base = .fin 0
      · rw [if_pos h, isOne_spec ha]
        rcases h0 with h0 | h0
        · exact absurd h h0
        · simp [h0]
      · rw [if_neg h]
    rw [this, Res.ok_bind]
    rfl
  · exact absurd hb hne1

end BigInt

/-! ### real numbers -/

/-- The logarithm from the leading 64 bits. -/
theorem log_parts {X L x : Nat} (h1 : 2 ^ 63 ≤ X) (h2 : X * 2 ^ L ≤ x * 2 ^ 64) (h3 : x * 2 ^ 64 < (X + 1) * 2 ^ L) :
    Real.log X + ((L : ℝ) - 64) * Real.log 2 ≤ Real.log x ∧
    Real.log x < Real.log X + ((L : ℝ) - 64) * Real.log 2 + 1 / 2 ^ 63 := by
  have hX : (2 : ℝ) ^ 63 ≤ X := by exact_mod_cast h1
  have hXp : (0 : ℝ) < X := lt_of_lt_of_le (by positivity) hX
  have h2' : (X : ℝ) * 2 ^ L ≤ x * 2 ^ 64 := by exact_mod_cast h2
  have h3' : (x : ℝ) * 2 ^ 64 < (X + 1) * 2 ^ L := by exact_mod_cast h3
  have hxp : (0 : ℝ) < x := by
    have : (0 : ℝ) < X * 2 ^ L := by positivity
    have := lt_of_lt_of_le this h2'
    exact pos_of_mul_pos_left this (by positivity)
  have e1 : ∀ y : ℝ, 0 < y → ∀ n : Nat, Real.log (y * 2 ^ n) = Real.log y + n * Real.log 2 := fun y hy n => by
    rw [Real.log_mul hy.ne' (by positivity), Real.log_pow]
  have l2 := Real.log_le_log (by positivity) h2'
  have l3 := Real.log_lt_log (by positivity) h3'
  rw [e1 _ hxp] at l2 l3
  rw [e1 _ hXp] at l2
  rw [e1 _ (by positivity)] at l3
  have l4 : Real.log ((X : ℝ) + 1) ≤ Real.log X + 1 / 2 ^ 63 := by
    have : Real.log (((X : ℝ) + 1) / X) ≤ ((X : ℝ) + 1) / X - 1 := Real.log_le_sub_one_of_pos (by positivity)
    rw [Real.log_div (by positivity) hXp.ne'] at this
    have e : ((X : ℝ) + 1) / X - 1 = 1 / X := by field_simp; ring
    rw [e] at this
    have : 1 / (X : ℝ) ≤ 1 / 2 ^ 63 := one_div_le_one_div_of_le (by positivity) hX
    linarith
  push_cast at l2 l3
  constructor <;> nlinarith

/-- Relative error at most `e`. -/
def Near (e r x : ℝ) : Prop := ∃ t, |t| ≤ e ∧ r = x * (1 + t)

theorem Near.of_abs {e r x : ℝ} (he : 0 ≤ e) (h : |r - x| ≤ e * |x|) : Near e r x := by
  by_cases hx : x = 0
  · subst hx
    simp at h
    exact ⟨0, by simpa using he, by simp [h]⟩
  · refine ⟨(r - x) / x, ?_, ?_⟩
    · rw [abs_div, div_le_iff₀ (abs_pos.2 hx)]; exact h
    · field_simp; ring

theorem Near.abs {e r x : ℝ} (h : Near e r x) : |r - x| ≤ e * |x| := by
  obtain ⟨t, h1, rfl⟩ := h
  rw [show x * (1 + t) - x = t * x by ring, abs_mul]
  exact mul_le_mul_of_nonneg_right h1 (abs_nonneg x)

theorem Near.mono {e e' r x : ℝ} (h : Near e r x) (he : e ≤ e') : Near e' r x := by
  obtain ⟨t, h1, h2⟩ := h
  exact ⟨t, h1.trans he, h2⟩

/-- A second error of size `d`. -/
theorem Near.trans {e d r s x : ℝ} (h : Near e r x) (h' : Near d s r) (he : e ≤ 1 / 10) : Near (e + 1.1 * d) s x := by
  obtain ⟨t, h1, rfl⟩ := h
  obtain ⟨u, h2, rfl⟩ := h'
  refine ⟨t + (1 + t) * u, ?_, by ring⟩
  have h3 : |(1 + t) * u| ≤ 1.1 * d := by
    rw [abs_mul]
    refine mul_le_mul ?_ h2 (abs_nonneg _) (by norm_num)
    have := abs_le.1 (h1.trans he)
    rw [abs_le]
    constructor <;> linarith
  exact (abs_add_le _ _).trans (add_le_add h1 h3)

theorem Near.div {e1 e2 a b x y : ℝ} (h : Near e1 a x) (h' : Near e2 b y) (he : e2 ≤ 1 / 10) :
    Near (1.2 * (e1 + e2)) (a / b) (x / y) := by
  obtain ⟨t, h1, rfl⟩ := h
  obtain ⟨s, h2, rfl⟩ := h'
  have hs := abs_le.1 (h2.trans he)
  have h0 : (0 : ℝ) < 1 + s := by linarith
  refine ⟨(t - s) / (1 + s), ?_, ?_⟩
  · rw [abs_div, abs_of_pos h0, div_le_iff₀ h0]
    have h3 : |t - s| ≤ e1 + e2 := (abs_sub _ _).trans (add_le_add h1 h2)
    have h4 : 0 ≤ |t - s| := abs_nonneg _
    nlinarith
  · rw [mul_div_mul_comm]
    congr 1
    field_simp
    ring

theorem Near.bounds {e r x : ℝ} (h : Near e r x) (he : e ≤ 1 / 2) : |x| / 2 ≤ |r| ∧ |r| ≤ 2 * |x| := by
  obtain ⟨t, h1, rfl⟩ := h
  have := abs_le.1 (h1.trans he)
  rw [abs_mul, abs_of_pos (show 0 < 1 + t by linarith)]
  have := abs_nonneg x
  constructor <;> nlinarith

/-! ### the wrapper -/

theorem wrapper_fin {u b : ℝ} (hu : 0 < u) (hb : 0 < b) (h1 : b ≠ 1) (hl : Fpu.lg b ≠ 0) :
    logWrapper (.fin u) (.fin b) = .fin (Fpu.rnd (Fpu.lg u / Fpu.lg b)) := by
  unfold logWrapper
  rw [if_neg (by simp), if_neg (by simp), if_neg (by simpa using h1), if_neg (by simp [hb.ne'])]
  simp only [Dbl.log, Dbl.div]
  rw [if_neg (by linarith), if_neg hu.ne', if_neg (by linarith), if_neg hb.ne']
  simp only
  rw [if_neg hl]

theorem log_ne_zero {b : ℝ} (hb : 0 < b) (h1 : b ≠ 1) : Real.log b ≠ 0 :=
  Real.log_ne_zero_of_pos_of_ne_one hb h1

theorem Near.ne_zero {e r x : ℝ} (h : Near e r x) (he : e ≤ 1 / 2) (hx : x ≠ 0) : r ≠ 0 := by
  have := (h.bounds he).1
  have h2 := abs_pos.2 hx
  intro h0
  rw [h0, abs_zero] at this
  linarith

theorem BigInt.log_positive {a : BigInt} {x : Int} (ha : a.Denotes x) (hl : a.bits.length < 2147483648) (hx : 0 < x)
    {b : ℝ} (hb : 0 < b) (h1 : b ≠ 1) :
    (a.bits = [] ∧ a.log (.fin b) = .ok (logWrapper (.fin x) (.fin b))) ∨
    ∃ X L : Nat, 2 ^ 63 ≤ X ∧ X < 2 ^ 64 ∧ 32 ≤ L ∧ L < 2 ^ 36 ∧ X * 2 ^ L ≤ x.toNat * 2 ^ 64 ∧ x.toNat * 2 ^ 64 < (X + 1) * 2 ^ L ∧
      a.log (.fin b) = .ok ((logWrapper (.fin (Fpu.rnd X)) (.fin b)).add
        ((Dbl.fin (Fpu.rnd (((L : Int) - 64 : Int) : ℝ))).div (logWrapper (.fin b) (.fin 2)))) := by
  by_cases h : a.bits = []
  · exact .inl ⟨h, log_small ha h hx.le (by simpa using h1) (by simp) (.inl (by simpa using hb.ne'))⟩
  · exact .inr (log_big ha hl h hx (by simpa using h1) (by simp) (by simpa using hb.ne'))

/-- Exact arithmetic. -/
theorem BigInt.log_exact {a : BigInt} {x : Int} (ha : a.Denotes x) (hl : a.bits.length < 2147483648) (hx : 0 < x)
    {b : ℝ} (hb : 0 < b) (h1 : b ≠ 1) :
    let _ := Fpu.exact
    ∃ r, a.log (.fin b) = .ok (.fin r) ∧ |r - Real.logb b x| < 1 / 2 ^ 63 / |Real.log b| := by
  intro _
  have hlb := log_ne_zero hb h1
  have hlp := abs_pos.2 hlb
  have hl2 : Real.log 2 ≠ 0 := log_ne_zero (by norm_num) (by norm_num)
  have hxr : (0 : ℝ) < x := by exact_mod_cast hx
  rcases log_positive ha hl hx hb h1 with ⟨-, h2⟩ | ⟨X, L, g1, g2, g3, -, g4, g5, h2⟩
  · rw [h2, wrapper_fin hxr hb h1 hlb]
    refine ⟨_, rfl, ?_⟩
    have : Fpu.rnd (Fpu.lg (x : ℝ) / Fpu.lg b) - Real.logb b x = 0 := sub_self (Real.log x / Real.log b)
    rw [this, abs_zero]
    positivity
  · have hX : (0 : ℝ) < Fpu.rnd (X : ℝ) := by
      show (0 : ℝ) < X
      have : 0 < X := by omega
      exact_mod_cast this
    rw [h2, wrapper_fin hX hb h1 hlb, wrapper_fin hb (by norm_num) (by norm_num) hl2]
    have hw : Fpu.rnd (Fpu.lg b / Fpu.lg 2) ≠ 0 := div_ne_zero hlb hl2
    simp only [Dbl.div, Dbl.add]
    rw [if_neg hw]
    refine ⟨_, rfl, ?_⟩
    have hp := log_parts g1 g4 g5
    have e : (x.toNat : ℝ) = (x : ℝ) := by
      have : ((x.toNat : Int) : ℝ) = (x : ℝ) := by rw [Int.toNat_of_nonneg hx.le]
      exact_mod_cast this
    rw [e] at hp
    show |(Real.log X / Real.log b + (((L : Int) - 64 : Int) : ℝ) / (Real.log b / Real.log 2)) - Real.log x / Real.log b| < _
    have e2 : (Real.log X / Real.log b + (((L : Int) - 64 : Int) : ℝ) / (Real.log b / Real.log 2)) - Real.log x / Real.log b =
        (Real.log X + ((L : ℝ) - 64) * Real.log 2 - Real.log x) / Real.log b := by
      push_cast
      field_simp
    rw [e2, abs_div, div_lt_div_iff_of_pos_right hlp, abs_lt]
    have : (0 : ℝ) < 1 / 2 ^ 63 := by positivity
    constructor <;> linarith

theorem normal_of {x lo hi : ℝ} (h1 : lo ≤ |x|) (h2 : |x| ≤ hi) (h3 : 1 / 2 ^ 200 ≤ lo) (h4 : hi ≤ 2 ^ 200) : Normal x :=
  .inr ⟨h3.trans h1, h2.trans h4⟩

theorem abs_div_bounds {x y a b c d : ℝ} (h1 : a ≤ |x|) (h2 : |x| ≤ b) (h3 : c ≤ |y|) (h4 : |y| ≤ d) (ha : 0 ≤ a) (hc : 0 < c) :
    a / d ≤ |x / y| ∧ |x / y| ≤ b / c := by
  rw [abs_div]
  have hy : 0 < |y| := lt_of_lt_of_le hc h3
  exact ⟨div_le_div₀ (by linarith) h1 hy h4, div_le_div₀ (by linarith) h2 hc h3⟩

theorem log_two_bounds : 0.69 ≤ Real.log 2 ∧ Real.log 2 ≤ 0.7 := by
  constructor
  · linarith [Real.log_two_gt_d9]
  · linarith [Real.log_two_lt_d9]

/-- The final addition. -/
theorem sum_step {ε A n T B U V x : ℝ} {R : ℝ → ℝ} (he0 : 0 ≤ ε) (he : ε ≤ 1 / 1024) (hb1 : 1 / 2 ^ 60 ≤ |B|) (hb2 : |B| ≤ 2 ^ 60)
    (t1 : 0.69 ≤ T) (t2 : T ≤ 0.7) (lX1 : 63 * T ≤ A) (lX2 : A ≤ 64 * T) (hL1 : 32 ≤ n) (hL2 : n ≤ 2 ^ 36)
    (n4 : |U - A / B| ≤ 8 * ε * (A / |B|)) (n7 : |V - (n - 64) / (B / T)| ≤ 8 * ε * |(n - 64) / (B / T)|)
    (nrnd : ∀ y, Normal y → Near ε (R y) y) (p1 : A + (n - 64) * T ≤ x) (p2 : x ≤ A + (n - 64) * T + 1 / 2 ^ 63) :
    |R (U + V) - x / B| ≤ 34 * ε * |x / B| + 1 / 2 ^ 63 / |B| := by
  have hlp : 0 < |B| := lt_of_lt_of_le (by norm_num) hb1
  have hB : B ≠ 0 := abs_pos.1 hlp
  have hT : T ≠ 0 := by linarith
  have eT2 : |(n - 64) / (B / T)| = |n - 64| * T / |B| := by
    rw [abs_div, abs_div, abs_of_pos (show 0 < T by linarith)]; field_simp
  have eS : A / B + (n - 64) / (B / T) = (A + (n - 64) * T) / B := by field_simp
  have hSpos : 20 ≤ A + (n - 64) * T := by nlinarith
  have hsum : A + |n - 64| * T ≤ 4 * (A + (n - 64) * T) := by
    rcases abs_cases (n - 64) with ⟨h, h'⟩ | ⟨h, h'⟩ <;> rw [h] <;> nlinarith
  rw [eT2] at n7
  have hSb : A + (n - 64) * T ≤ 2 ^ 38 := by
    have : (n - 64) * T ≤ 2 ^ 36 * 1 := by norm_num at hL2 ⊢; nlinarith
    norm_num at this ⊢; linarith
  have n8 : |U + V - (A + (n - 64) * T) / B| ≤ 32 * ε * ((A + (n - 64) * T) / |B|) := by
    rw [← eS, show U + V - (A / B + (n - 64) / (B / T)) = (U - A / B) + (V - (n - 64) / (B / T)) by ring]
    refine (abs_add_le _ _).trans ((add_le_add n4 n7).trans ?_)
    have q3 : A / |B| + |n - 64| * T / |B| ≤ 4 * ((A + (n - 64) * T) / |B|) := by
      rw [← add_div, ← mul_div_assoc]
      exact div_le_div_of_nonneg_right hsum hlp.le
    calc 8 * ε * (A / |B|) + 8 * ε * (|n - 64| * T / |B|) = 8 * ε * (A / |B| + |n - 64| * T / |B|) := by ring
      _ ≤ 8 * ε * (4 * ((A + (n - 64) * T) / |B|)) := mul_le_mul_of_nonneg_left q3 (by linarith)
      _ = _ := by ring
  generalize hS : A + (n - 64) * T = S at *
  have hSB : |S / B| = S / |B| := by rw [abs_div, abs_of_pos (by linarith)]
  have n8 : Near (32 * ε) (U + V) (S / B) := Near.of_abs (by linarith) (by rw [hSB]; exact n8)
  have b8 := n8.bounds (by linarith)
  rw [hSB] at b8
  have hN : Normal (U + V) := by
    refine normal_of (lo := 1 / 2 ^ 60) (hi := 2 ^ 100) (le_trans ?_ b8.1) (le_trans b8.2 ?_) (by norm_num) (by norm_num)
    · rw [div_div, le_div_iff₀ (by linarith)]
      norm_num at hb2 ⊢; linarith
    · rw [← mul_div_assoc, div_le_iff₀ hlp]
      norm_num at hb1 hSb ⊢; linarith
  have n9 := (n8.trans (nrnd _ hN) (by linarith)).abs
  rw [hSB] at n9
  have hlx : |x / B| = x / |B| := by rw [abs_div, abs_of_pos (by linarith)]
  have c1 : |S / B - x / B| ≤ 1 / 2 ^ 63 / |B| := by
    rw [← sub_div, abs_div, div_le_div_iff_of_pos_right hlp, abs_le]
    constructor <;> linarith
  have c2 : S / |B| ≤ x / |B| := div_le_div_of_nonneg_right p1 hlp.le
  have c4 : |R (U + V) - x / B| ≤ |R (U + V) - S / B| + |S / B - x / B| := by
    have := abs_add_le (R (U + V) - S / B) (S / B - x / B)
    rwa [sub_add_sub_cancel] at this
  have c5 : (32 * ε + 1.1 * ε) * (S / |B|) ≤ 34 * ε * (x / |B|) := by
    have c3 : 0 ≤ S / |B| := div_nonneg (by linarith) hlp.le
    calc (32 * ε + 1.1 * ε) * (S / |B|) ≤ 34 * ε * (S / |B|) := mul_le_mul_of_nonneg_right (by linarith) c3
      _ ≤ _ := mul_le_mul_of_nonneg_left c2 (by linarith)
  rw [hlx]
  linarith

/-- Rounded arithmetic. -/
theorem BigInt.log_rounded {ε : ℝ} (hf : Fpu.Accurate ‹Fpu› ε) (he0 : 0 ≤ ε) (he : ε ≤ 1 / 2 ^ 10)
    {a : BigInt} {x : Int} (ha : a.Denotes x) (hl : a.bits.length < 2147483648) (hx : 0 < x)
    {b : ℝ} (hb : 0 < b) (h1 : b ≠ 1) (hb1 : 1 / 2 ^ 60 ≤ |Real.log b|) (hb2 : |Real.log b| ≤ 2 ^ 60) :
    ∃ r, a.log (.fin b) = .ok (.fin r) ∧ |r - Real.logb b x| ≤ 34 * ε * |Real.logb b x| + 1 / 2 ^ 63 / |Real.log b| := by
  norm_num at he
  obtain ⟨t1, t2⟩ := log_two_bounds
  have hlb := log_ne_zero hb h1
  have hlp := abs_pos.2 hlb
  have hl2 : Real.log 2 ≠ 0 := by linarith
  have hxr : (1 : ℝ) ≤ x := by exact_mod_cast hx
  have nlg : ∀ {y : ℝ}, 0 < y → Near ε (Fpu.lg y) (Real.log y) := fun hy => .of_abs he0 (hf.lg _ hy)
  have nrnd : ∀ {y : ℝ}, Normal y → Near ε (Fpu.rnd y) y := fun hy => .of_abs he0 (hf.rnd _ hy)
  have nb := nlg hb
  have n2 := nlg (y := 2) (by norm_num)
  have bb := nb.bounds (by linarith)
  have b2 := n2.bounds (by linarith)
  rw [abs_of_pos (show 0 < Real.log 2 by linarith)] at b2
  have hb0 := nb.ne_zero (by linarith) hlb
  have h20 := n2.ne_zero (by linarith) hl2
  rcases log_positive ha hl hx hb h1 with ⟨h3, h2⟩ | ⟨X, L, g1, g2, g3, g3', g4, g5, h2⟩
  · rw [h2, wrapper_fin (by linarith) hb h1 hb0]
    refine ⟨_, rfl, ?_⟩
    have hx31 : (x : ℝ) ≤ 2 ^ 31 := by
      have h' : x ≤ 2 ^ 31 := by
        rcases ha.shape with ⟨rfl, h4, h5⟩ | ⟨s, xs, rfl, hs1, hne1, -⟩
        · norm_num; omega
        · exact absurd h3 hne1
      exact_mod_cast h'
    have nx := nlg (y := (x : ℝ)) (by linarith)
    have nq := nx.div nb (by linarith)
    have hn : Normal (Fpu.lg (x : ℝ) / Fpu.lg b) := by
      by_cases hx1 : x = 1
      · left
        obtain ⟨t, -, e⟩ := nx
        rw [e, hx1]; simp
      · have hx2 : (2 : ℝ) ≤ x := by
          have : (2 : Int) ≤ x := by omega
          exact_mod_cast this
        have l1 : Real.log 2 ≤ Real.log x := Real.log_le_log (by norm_num) hx2
        have l2 : Real.log x ≤ 31 * Real.log 2 := by
          have := Real.log_le_log (by linarith) hx31
          rwa [Real.log_pow] at this
        have bx := nx.bounds (by linarith)
        rw [abs_of_pos (show 0 < Real.log x by linarith)] at bx
        obtain ⟨k1, k2⟩ := abs_div_bounds (x := Fpu.lg (x : ℝ)) (y := Fpu.lg b) (show (0.3 : ℝ) ≤ _ by linarith [bx.1]) (show _ ≤ (100 : ℝ) by linarith [bx.2])
          (show (1 / 2 ^ 61 : ℝ) ≤ _ by refine le_trans ?_ bb.1; norm_num at hb1 ⊢; linarith)
          (show _ ≤ (2 ^ 61 : ℝ) by refine le_trans bb.2 ?_; norm_num at hb2 ⊢; linarith) (by norm_num) (by norm_num)
        exact normal_of k1 k2 (by norm_num) (by norm_num)
    have nr := (nq.trans (nrnd hn) (by linarith)).abs
    have : 0 ≤ |Real.log (x : ℝ) / Real.log b| := abs_nonneg _
    have hpos : 0 ≤ 1 / 2 ^ 63 / |Real.log b| := by positivity
    unfold Real.logb
    nlinarith
  · have hXr : (2 : ℝ) ^ 63 ≤ X := by exact_mod_cast g1
    have hXr' : (X : ℝ) ≤ 2 ^ 64 := by exact_mod_cast g2.le
    have hXp : (0 : ℝ) < X := lt_of_lt_of_le (by positivity) hXr
    have lX1 : 63 * Real.log 2 ≤ Real.log X := by
      have := Real.log_le_log (by norm_num) hXr
      rwa [Real.log_pow] at this
    have lX2 : Real.log X ≤ 64 * Real.log 2 := by
      have := Real.log_le_log hXp hXr'
      rwa [Real.log_pow] at this
    -- X converted
    have nX := nrnd (y := (X : ℝ)) (normal_of (lo := 1) (hi := 2 ^ 64) (by rw [abs_of_pos hXp]; exact le_trans (by norm_num) hXr)
      (by rw [abs_of_pos hXp]; exact hXr') (by norm_num) (by norm_num))
    obtain ⟨t, ht, eX⟩ := nX
    have ht' := abs_le.1 (ht.trans he)
    have hXp' : 0 < Fpu.rnd (X : ℝ) := by rw [eX]; exact mul_pos hXp (by linarith)
    have nlX : Near (0.1 * ε) (Real.log (Fpu.rnd (X : ℝ))) (Real.log X) := by
      apply Near.of_abs (by linarith)
      rw [eX, Real.log_mul hXp.ne' (by linarith), add_sub_cancel_left, abs_of_pos (show 0 < Real.log X by linarith)]
      have u1 : Real.log (1 + t) ≤ t := by linarith [Real.log_le_sub_one_of_pos (show 0 < 1 + t by linarith)]
      have u2 : 1 - (1 + t)⁻¹ ≤ Real.log (1 + t) := Real.one_sub_inv_le_log_of_pos (by linarith)
      have u3 : 1 - (1 + t)⁻¹ = t / (1 + t) := by field_simp [show 1 + t ≠ 0 by linarith]; ring
      have u4 : -(2 * ε) ≤ t / (1 + t) := by
        rw [le_div_iff₀ (by linarith)]
        nlinarith [(abs_le.1 ht).1]
      rw [abs_le]
      constructor
      · nlinarith
      · nlinarith [(abs_le.1 ht).2]
    have n3 := nlX.trans (nlg hXp') (by linarith)
    have b3 := n3.bounds (by linarith)
    rw [abs_of_pos (show 0 < Real.log X by linarith)] at b3
    have bb1 : (1 / 2 ^ 61 : ℝ) ≤ |Fpu.lg b| := by refine le_trans ?_ bb.1; norm_num at hb1 ⊢; linarith
    have bb2 : |Fpu.lg b| ≤ (2 ^ 61 : ℝ) := by refine le_trans bb.2 ?_; norm_num at hb2 ⊢; linarith
    -- first term
    obtain ⟨k1, k2⟩ := abs_div_bounds (x := Fpu.lg (Fpu.rnd (X : ℝ))) (y := Fpu.lg b) (show (20 : ℝ) ≤ _ by linarith [b3.1]) (show _ ≤ (100 : ℝ) by linarith [b3.2])
      bb1 bb2 (by norm_num) (by norm_num)
    have n4 := (n3.div nb (by linarith)).trans (nrnd (normal_of k1 k2 (by norm_num) (by norm_num))) (by linarith)
    -- the base in bits
    obtain ⟨k3, k4⟩ := abs_div_bounds (y := Fpu.lg 2) bb1 bb2 (show (0.3 : ℝ) ≤ _ by linarith [b2.1]) (show _ ≤ (2 : ℝ) by linarith [b2.2])
      (by norm_num) (by norm_num)
    have n5 := (nb.div n2 (by linarith)).trans (nrnd (normal_of k3 k4 (by norm_num) (by norm_num))) (by linarith)
    have hw : Fpu.rnd (Fpu.lg b / Fpu.lg 2) ≠ 0 := n5.ne_zero (by linarith) (div_ne_zero hlb hl2)
    have b5 := n5.bounds (by linarith)
    have q5 : |Real.log b / Real.log 2| = |Real.log b| / Real.log 2 := by
      rw [abs_div, abs_of_pos (show 0 < Real.log 2 by linarith)]
    rw [q5] at b5
    have b51 : (1 / 2 ^ 61 : ℝ) ≤ |Fpu.rnd (Fpu.lg b / Fpu.lg 2)| := by
      refine le_trans ?_ b5.1
      rw [div_div, le_div_iff₀ (by linarith)]
      norm_num at hb1 ⊢
      linarith
    have b52 : |Fpu.rnd (Fpu.lg b / Fpu.lg 2)| ≤ (2 ^ 62 : ℝ) := by
      refine le_trans b5.2 ?_
      rw [← mul_div_assoc, div_le_iff₀ (by linarith)]
      norm_num at hb2 ⊢
      linarith
    -- the second term
    have hL : (((L : Int) - 64 : Int) : ℝ) = (L : ℝ) - 64 := by push_cast; ring
    have hL1 : (32 : ℝ) ≤ L := by exact_mod_cast g3
    have hL2 : (L : ℝ) ≤ 2 ^ 36 := by exact_mod_cast g3'.le
    have hLn : (((L : Int) - 64 : Int)) = 0 ∨ 1 ≤ |(L : ℝ) - 64| := by
      by_cases h : (L : Int) - 64 = 0
      · exact .inl h
      · right
        have : 1 ≤ |(L : Int) - 64| := Int.one_le_abs h
        have h' : ((1 : Int) : ℝ) ≤ ((|(L : Int) - 64| : Int) : ℝ) := by exact_mod_cast this
        push_cast at h'
        exact h'
    have hLa : |(L : ℝ) - 64| ≤ 2 ^ 36 := by
      rw [abs_le]; norm_num at hL2 ⊢; constructor <;> linarith
    have n6 := nrnd (y := (((L : Int) - 64 : Int) : ℝ)) (by
      rcases hLn with h | h
      · left; rw [h]; simp
      · rw [hL]; exact normal_of h hLa (by norm_num) (by norm_num))
    have n7 : Near (1.2 * (ε + (1.2 * (ε + ε) + 1.1 * ε)) + 1.1 * ε)
        (Fpu.rnd (Fpu.rnd (((L : Int) - 64 : Int) : ℝ) / Fpu.rnd (Fpu.lg b / Fpu.lg 2)))
        ((((L : Int) - 64 : Int) : ℝ) / (Real.log b / Real.log 2)) := by
      refine (n6.div n5 (by linarith)).trans (nrnd ?_) (by linarith)
      rcases hLn with h | h
      · left
        obtain ⟨t, -, e⟩ := n6
        rw [e, h]; simp
      · have b6 := n6.bounds (by linarith)
        rw [hL] at b6 ⊢
        obtain ⟨k1, k2⟩ := abs_div_bounds (x := Fpu.rnd ((L : ℝ) - 64)) (show (0.5 : ℝ) ≤ _ by linarith [b6.1])
          (show _ ≤ (2 ^ 37 : ℝ) by refine b6.2.trans ?_; norm_num at hLa ⊢; linarith) b51 b52 (by norm_num) (by norm_num)
        exact normal_of k1 k2 (by norm_num) (by norm_num)
    rw [h2, wrapper_fin hXp' hb h1 hb0, wrapper_fin hb (by norm_num) (by norm_num) h20]
    simp only [Dbl.div, Dbl.add]
    rw [if_neg hw]
    refine ⟨_, rfl, ?_⟩
    rw [hL] at n7
    rw [hL]
    have n4' := n4.abs
    have n7' := n7.abs
    have hp := log_parts g1 g4 g5
    have ex : (x.toNat : ℝ) = (x : ℝ) := by
      have : ((x.toNat : Int) : ℝ) = (x : ℝ) := by rw [Int.toNat_of_nonneg hx.le]
      exact_mod_cast this
    rw [ex] at hp
    rw [abs_div, abs_of_pos (show 0 < Real.log X by linarith)] at n4'
    exact sum_step he0 he hb1 hb2 t1 t2 lX1 lX2 hL1 hL2 (n4'.trans (mul_le_mul_of_nonneg_right (by linarith) (by positivity)))
      (n7'.trans (mul_le_mul_of_nonneg_right (by linarith) (by positivity))) (fun _ h => nrnd h) hp.1 hp.2.le

end BigIntegerCpp
