import Verif.Lemmas.FloatTwice
import Verif.Props.Convert
/-
C62: conversions to and from floating-point numbers keep the order and the sign.
-/
set_option linter.unusedSectionVars false
namespace BigIntegerCpp
open Samples
variable [Cfg]

private theorem keep_form (n : Nat) : ∃ m j, m < 2 ^ 53 ∧ keepBits 53 n = m * 2 ^ j := by
  by_cases hn : n < 2 ^ 53
  · exact ⟨n, 0, hn, by rw [keepBits_small hn, pow_zero, mul_one]⟩
  · refine ⟨_, Nat.log2 n + 1 - 53, ?_, rfl⟩
    have hL : 53 ≤ Nat.log2 n := (Nat.le_log2 (by omega)).2 (by omega)
    rw [Nat.div_lt_iff_lt_mul (Nat.two_pow_pos _), ← pow_add, show 53 + (Nat.log2 n + 1 - 53) = Nat.log2 n + 1 by omega]
    exact Nat.lt_log2_self

private theorem keep_mono {m n : Nat} (h : m ≤ n) : keepBits 53 m ≤ keepBits 53 n := by
  obtain ⟨k, j, hk, e⟩ := keep_form m
  have h1 : k * 2 ^ (j + 149) ≤ n * 2 ^ 149 := by
    rw [pow_add, ← mul_assoc, ← e]
    exact Nat.mul_le_mul_right _ (le_trans (keepBits_le m) h)
  have h2 := keepBits_greatest hk h1
  rw [pow_add, ← mul_assoc, ← e] at h2
  exact Nat.le_of_mul_le_mul_right h2 (Nat.two_pow_pos _)

/-- The integer truncated to 53 bits. -/
private def trunc (x : Int) : Int := (if x < 0 then -1 else 1) * (keepBits 53 x.natAbs : Nat)

private theorem trunc_mono {x y : Int} (h : x ≤ y) : trunc x ≤ trunc y := by
  unfold trunc
  have a1 : y < 0 → keepBits 53 y.natAbs ≤ keepBits 53 x.natAbs := fun hy => keep_mono (by omega)
  have a2 : 0 ≤ x → keepBits 53 x.natAbs ≤ keepBits 53 y.natAbs := fun hx => keep_mono (by omega)
  split_ifs <;> omega

private theorem trunc_scaled (x : Int) (k : Nat) : (if x < 0 then -1 else 1) * ((keepBits 53 x.natAbs * 2 ^ k : Nat) : Int) = trunc x * 2 ^ k := by
  unfold trunc; push_cast; ring

private theorem finite_not_nan {d : Nat} (h : DblFinite d) : ¬ DblNaN d := fun h' => h h'.1
private theorem inf_not_nan (b : Bool) : ¬ DblNaN (dblInfinity b) := by cases b <;> (unfold DblNaN; decide)
private theorem flt_not_nan {d : Nat} (h : FltFinite d) : ¬ FltNaN d := fun h' => h h'.1
private theorem flt_inf_not_nan (b : Bool) : ¬ FltNaN (fltInfinity b) := by cases b <;> (unfold FltNaN; decide)

/-- If `a <= b` then `double(a) <= double(b)`. -/
theorem C62_to_double (a b : BigInt) (x y : Int) (ha : a.Denotes x) (hb : b.Denotes y) (fa : a.Fits) (fb : b.Fits) (h : x ≤ y) :
    ∃ d e, a.toDouble = .ok d ∧ b.toDouble = .ok e ∧ DblLe d e := by
  obtain ⟨d, h1, -, h2, h3⟩ := BigInt.toDouble_spec ha (Nat.lt_succ_of_lt fa)
  obtain ⟨e, k1, -, k2, k3⟩ := BigInt.toDouble_spec hb (Nat.lt_succ_of_lt fb)
  refine ⟨d, e, h1, k1, ?_⟩
  generalize hY : (2 : Nat) ^ 1024 = Y at *
  by_cases hx : Y ≤ x.natAbs
  · by_cases hy : Y ≤ y.natAbs
    · rw [h2 hx, k2 hy]
      refine ⟨inf_not_nan _, inf_not_nan _, ?_⟩
      by_cases hn : x < 0
      · exact .inl (by rw [decide_eq_true hn])
      · exact .inr (.inl (by rw [decide_eq_false (show ¬ y < 0 by omega)]))
    · obtain ⟨f1, f2⟩ := k3 (by omega)
      rw [h2 hx]
      exact ⟨inf_not_nan _, finite_not_nan f1, .inl (by rw [decide_eq_true (show x < 0 by omega)])⟩
  · obtain ⟨g1, g2⟩ := h3 (by omega)
    by_cases hy : Y ≤ y.natAbs
    · rw [k2 hy]
      exact ⟨finite_not_nan g1, inf_not_nan _, .inr (.inl (by rw [decide_eq_false (show ¬ y < 0 by omega)]))⟩
    · obtain ⟨f1, f2⟩ := k3 (by omega)
      refine ⟨finite_not_nan g1, finite_not_nan f1, .inr (.inr ⟨g1, f1, ?_⟩)⟩
      rw [g2, f2, trunc_scaled, trunc_scaled]
      exact mul_le_mul_of_nonneg_right (trunc_mono h) (by positivity)

/-- If `a <= b` then `float(a) <= float(b)`, in spite of the two roundings (C49). -/
theorem C62_to_float (a b : BigInt) (x y : Int) (ha : a.Denotes x) (hb : b.Denotes y) (fa : a.Fits) (fb : b.Fits) (h : x ≤ y) :
    ∃ f g, a.toFloat = .ok f ∧ b.toFloat = .ok g ∧ FltLe f g := by
  obtain ⟨f, h1, h2, h3⟩ := toFloat_spec ha (Nat.lt_succ_of_lt fa)
  obtain ⟨g, k1, k2, k3⟩ := toFloat_spec hb (Nat.lt_succ_of_lt fb)
  refine ⟨f, g, h1, k1, ?_⟩
  by_cases hx : 2 ^ 128 - 2 ^ 103 ≤ x.natAbs
  · by_cases hy : 2 ^ 128 - 2 ^ 103 ≤ y.natAbs
    · rw [h3 hx, k3 hy]
      refine ⟨flt_inf_not_nan _, flt_inf_not_nan _, ?_⟩
      by_cases hn : x < 0
      · exact .inl (by rw [decide_eq_true hn])
      · exact .inr (.inl (by rw [decide_eq_false (show ¬ y < 0 by omega)]))
    · have f1 := (k2 (by omega)).2.1
      rw [h3 hx]
      exact ⟨flt_inf_not_nan _, flt_not_nan f1, .inl (by rw [decide_eq_true (show x < 0 by omega)])⟩
  · have n1 := h2 (by omega)
    by_cases hy : 2 ^ 128 - 2 ^ 103 ≤ y.natAbs
    · rw [k3 hy]
      exact ⟨flt_not_nan n1.2.1, flt_inf_not_nan _, .inr (.inl (by rw [decide_eq_false (show ¬ y < 0 by omega)]))⟩
    · have n2 := k2 (by omega)
      refine ⟨flt_not_nan n1.2.1, flt_not_nan n2.2.1, .inr (.inr ⟨n1.2.1, n2.2.1, ?_⟩)⟩
      by_contra hc
      have ht : trunc x ≤ trunc y := trunc_mono h
      change NearestFloat 149 (trunc x * 2 ^ 149) f at n1
      change NearestFloat 149 (trunc y * 2 ^ 149) g at n2
      obtain ⟨f1, f2, f3⟩ := nearest_simp.1 n1
      obtain ⟨g1, g2, g3⟩ := nearest_simp.1 n2
      have c1 := (f3 g g1 g2).1
      have c2 := (g3 f f1 f2).1
      have hle : trunc x * 2 ^ 149 ≤ trunc y * 2 ^ 149 := mul_le_mul_of_nonneg_right ht (by positivity)
      have heq : trunc x * 2 ^ 149 = trunc y * 2 ^ 149 := by
        generalize trunc x * 2 ^ 149 = X at *
        generalize trunc y * 2 ^ 149 = Y at *
        rcases abs_cases (X - fltScaled f) with ⟨a1, a2⟩ | ⟨a1, a2⟩ <;> rcases abs_cases (X - fltScaled g) with ⟨b1, b2⟩ | ⟨b1, b2⟩ <;>
          rcases abs_cases (Y - fltScaled f) with ⟨d1, d2⟩ | ⟨d1, d2⟩ <;> rcases abs_cases (Y - fltScaled g) with ⟨e1, e2⟩ | ⟨e1, e2⟩ <;> omega
      have heq : trunc x = trunc y := mul_right_cancel₀ (by positivity) heq
      -- the doubles are the same, hence the floats
      obtain ⟨d, p1, p2, -, p3⟩ := BigInt.toDouble_spec ha (Nat.lt_succ_of_lt fa)
      obtain ⟨e, q1, q2, -, q3⟩ := BigInt.toDouble_spec hb (Nat.lt_succ_of_lt fb)
      have hbig : (2 : Nat) ^ 128 - 2 ^ 103 ≤ 2 ^ 1024 := by decide +kernel
      have p4 := (p3 (lt_of_lt_of_le (by omega) hbig)).2
      have q4 := (q3 (lt_of_lt_of_le (by omega) hbig)).2
      rw [trunc_scaled] at p4 q4
      have hd : d = e := by
        by_cases h0 : trunc x = 0
        · have e0 : ∀ z : Int, trunc z = 0 → z = 0 := by
            intro z hz
            unfold trunc at hz
            have hk : keepBits 53 z.natAbs = 0 := by split_ifs at hz <;> omega
            by_contra hne
            have := keep_mono (show 1 ≤ z.natAbs by omega)
            rw [hk] at this
            exact absurd this (by decide)
          obtain rfl := e0 x h0
          obtain rfl := e0 y (heq ▸ h0)
          obtain rfl := ha.unique hb
          exact Res.ok.inj (p1.symm.trans q1)
        · refine dblScaled_inj p2 q2 ?_ ?_
          · rw [p4]; exact mul_ne_zero h0 (by positivity)
          · rw [p4, q4, heq]
      have : f = g := by
        unfold BigInt.toFloat at h1 k1
        rw [p1] at h1
        rw [q1] at k1
        rw [← Res.ok.inj h1, ← Res.ok.inj k1, hd]
      rw [this] at hc
      exact hc (le_refl _)

/-- If `d <= e` then `BigInteger(d) <= BigInteger(e)`. -/
theorem C62_of_double (d e : Nat) (hd : d < 2 ^ 64) (he : e < 2 ^ 64) (fd : DblFinite d) (fe : DblFinite e) (h : DblLe d e) :
    ∃ a b x y, ofDouble d = .ok a ∧ ofDouble e = .ok b ∧ a.Denotes x ∧ b.Denotes y ∧ x ≤ y := by
  obtain ⟨a, h1, h2⟩ := C36_of_double d hd fd
  obtain ⟨b, k1, k2⟩ := C36_of_double e he fe
  refine ⟨a, b, _, _, h1, k1, h2, k2, ?_⟩
  have hle : dblScaled d ≤ dblScaled e := by
    rcases h.2.2 with rfl | rfl | h
    · exact absurd fd (by unfold DblFinite; decide)
    · exact absurd fe (by unfold DblFinite; decide)
    · exact h.2.2
  exact Int.tdiv_le_tdiv (by positivity) hle

omit [Cfg] in
private theorem dbl_flip {d : Nat} (h : d < 2 ^ 64) : (d + 2 ^ 63) % 2 ^ 64 < 2 ^ 64 ∧
    dblScaled ((d + 2 ^ 63) % 2 ^ 64) = -dblScaled d := by
  have e1 : dblExp ((d + 2 ^ 63) % 2 ^ 64) = dblExp d := by unfold dblExp; omega
  have e2 : dblFrac ((d + 2 ^ 63) % 2 ^ 64) = dblFrac d := by unfold dblFrac; omega
  have e3 : dblSign ((d + 2 ^ 63) % 2 ^ 64) = -dblSign d := by
    unfold dblSign
    by_cases c : d < 2 ^ 63
    · rw [if_pos c, if_neg (by omega)]
    · rw [if_neg c, if_pos (by omega)]; rfl
  exact ⟨by omega, by unfold dblScaled; rw [e1, e2, e3, neg_mul]⟩

/-- The double of `-a` is that of `a` with the sign bit flipped, for `a ≠ 0`. -/
theorem C62_negate_double (a b : BigInt) (x : Int) (ha : a.Denotes x) (hb : b.Denotes (-x)) (fa : a.Fits) (fb : b.Fits) (h : x ≠ 0) :
    ∃ d, a.toDouble = .ok d ∧ b.toDouble = .ok ((d + 2 ^ 63) % 2 ^ 64) := by
  obtain ⟨d, h1, h2, h3, h4⟩ := BigInt.toDouble_spec ha (Nat.lt_succ_of_lt fa)
  obtain ⟨e, k1, k2, k3, k4⟩ := BigInt.toDouble_spec hb (Nat.lt_succ_of_lt fb)
  refine ⟨d, h1, ?_⟩
  rw [k1]
  rw [Int.natAbs_neg] at k3 k4
  obtain ⟨g1, g2⟩ := dbl_flip h2
  rcases Nat.lt_or_ge x.natAbs (2 ^ 1024) with hx | hx
  · refine congrArg _ (dblScaled_inj k2 g1 ?_ ?_)
    · rw [(k4 hx).2]
      have hk := keep_mono (show 1 ≤ x.natAbs by omega)
      refine mul_ne_zero (by split_ifs <;> decide) (Int.natCast_ne_zero.2 (Nat.mul_ne_zero ?_ (Nat.two_pow_pos _).ne'))
      intro h0
      rw [h0] at hk
      exact absurd hk (by decide)
    · rw [(k4 hx).2, g2, (h4 hx).2]
      generalize ((keepBits 53 x.natAbs * 2 ^ 1074 : Nat) : Int) = K
      split_ifs <;> omega
  · rw [h3 hx, k3 hx]
    by_cases hn : x < 0
    · rw [decide_eq_true hn, decide_eq_false (by omega)]; decide
    · rw [decide_eq_false hn, decide_eq_true (by omega)]; decide

/-- So is the float. -/
theorem C62_negate_float (a b : BigInt) (x : Int) (ha : a.Denotes x) (hb : b.Denotes (-x)) (fa : a.Fits) (fb : b.Fits) (h : x ≠ 0) :
    ∃ f, a.toFloat = .ok f ∧ b.toFloat = .ok ((f + 2 ^ 31) % 2 ^ 32) := by
  obtain ⟨d, h1, h2⟩ := C62_negate_double a b x ha hb fa fb h
  obtain ⟨d', h1', hd, -⟩ := BigInt.toDouble_spec ha (Nat.lt_succ_of_lt fa)
  obtain rfl := Res.ok.inj (h1.symm.trans h1')
  refine ⟨doubleToFloat d, by unfold BigInt.toFloat; rw [h1]; rfl, ?_⟩
  unfold BigInt.toFloat
  rw [h2]
  refine congrArg Res.ok ?_
  obtain ⟨g, g1, g2, g3⟩ : ∃ g, g < 2 ^ 31 ∧ doubleToFloat d = d / 2 ^ 63 * 2 ^ 31 + g ∧
      doubleToFloat ((d + 2 ^ 63) % 2 ^ 64) = (d + 2 ^ 63) % 2 ^ 64 / 2 ^ 63 * 2 ^ 31 + g := by
    unfold doubleToFloat
    rw [show (d + 2 ^ 63) % 2 ^ 64 / 2 ^ 52 % 2 ^ 11 = d / 2 ^ 52 % 2 ^ 11 by omega, show (d + 2 ^ 63) % 2 ^ 64 % 2 ^ 52 = d % 2 ^ 52 by omega]
    dsimp only
    by_cases he : d / 2 ^ 52 % 2 ^ 11 = 2047
    · rw [if_pos he, if_pos he]
      exact ⟨255 * 2 ^ 23 + (if d % 2 ^ 52 = 0 then 0 else 2 ^ 22 + d % 2 ^ 52 / 2 ^ 29 % 2 ^ 22), by split_ifs <;> omega,
        Nat.add_assoc _ _ _, Nat.add_assoc _ _ _⟩
    · rw [if_neg he, if_neg he]
      exact ⟨_, by split_ifs <;> omega, rfl, rfl⟩
  rw [g2, g3]
  omega

/-! ### examples -/

example : ∃ d e, neg3.toDouble = .ok d ∧ pos2.toDouble = .ok e ∧ DblLe d e :=
  C62_to_double _ _ _ _ neg3_denotes pos2_denotes neg3_fits pos2_fits (by decide)
example : ∃ f g, neg3.toFloat = .ok f ∧ pos2.toFloat = .ok g ∧ FltLe f g :=
  C62_to_float _ _ _ _ neg3_denotes pos2_denotes neg3_fits pos2_fits (by decide)
/-- -2.5 and 1e300. -/
example : ∃ a b x y, ofDouble 0xC004000000000000 = .ok a ∧ ofDouble 0x7E37E43C8800759C = .ok b ∧ a.Denotes x ∧ b.Denotes y ∧ x ≤ y :=
  C62_of_double _ _ (by decide) (by decide) (by unfold DblFinite; decide) (by unfold DblFinite; decide)
    ⟨by unfold DblNaN; decide, by unfold DblNaN; decide, .inr (.inr ⟨by unfold DblFinite; decide, by unfold DblFinite; decide, by decide +kernel⟩)⟩
example : ∃ d, small.toDouble = .ok d ∧ BigInt.toDouble ⟨42, []⟩ = .ok ((d + 2 ^ 63) % 2 ^ 64) :=
  C62_negate_double _ _ _ small_denotes (BigInt.denotes_small (by decide) (by decide)) small_fits (by decide) (by decide)
example : ∃ f, small.toFloat = .ok f ∧ BigInt.toFloat ⟨42, []⟩ = .ok ((f + 2 ^ 31) % 2 ^ 32) :=
  C62_negate_float _ _ _ small_denotes (BigInt.denotes_small (by decide) (by decide)) small_fits (by decide) (by decide)
/-- Below `2^53` a smaller value has a smaller double, not only not a larger one; above that two
values may share one. -/
example : BigInt.toDouble ⟨1, [0, 2097152]⟩ = BigInt.toDouble ⟨1, [1, 2097152]⟩ := by decide +kernel

end BigIntegerCpp
