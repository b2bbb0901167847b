import Verif.Model.FloatBack
import Verif.Lemmas.Float
/-
Floats as doubles; which integers are floats.
-/
set_option linter.unusedSectionVars false
namespace BigIntegerCpp
variable [Cfg]

theorem dbl_fields {s e m : Nat} (hs : s < 2) (he : e < 2048) (hm : m < 2 ^ 52) :
    s * 2 ^ 63 + e * 2 ^ 52 + m < 2 ^ 64 ∧ dblSign (s * 2 ^ 63 + e * 2 ^ 52 + m) = (if s = 0 then 1 else -1) ∧
    dblExp (s * 2 ^ 63 + e * 2 ^ 52 + m) = e ∧ dblFrac (s * 2 ^ 63 + e * 2 ^ 52 + m) = m := by
  unfold dblSign dblExp dblFrac
  refine ⟨by omega, ?_, by omega, by omega⟩
  by_cases h : s = 0
  · rw [if_pos h, if_pos (by omega)]
  · rw [if_neg h, if_neg (by omega)]

theorem flt_sign (f : Nat) (hf : f < 2 ^ 32) : fltSign f = (if f / 2 ^ 31 = 0 then 1 else -1) := by
  unfold fltSign
  by_cases h : f / 2 ^ 31 = 0
  · rw [if_pos h, if_pos (by omega)]
  · rw [if_neg h, if_neg (by omega)]

/-- Widening keeps the value. -/
theorem floatToDouble_spec {f : Nat} (hf : f < 2 ^ 32) :
    floatToDouble f < 2 ^ 64 ∧ (DblFinite (floatToDouble f) ↔ FltFinite f) ∧
    (FltFinite f → dblScaled (floatToDouble f) = fltScaled f * 2 ^ 925) := by
  have hs : f / 2 ^ 31 < 2 := by omega
  have hfr : f % 2 ^ 23 < 2 ^ 23 := by omega
  have he8 : f / 2 ^ 23 % 2 ^ 8 < 256 := by omega
  unfold floatToDouble DblFinite FltFinite
  dsimp only
  have hexp : fltExp f = f / 2 ^ 23 % 2 ^ 8 := rfl
  have hfrac : fltFrac f = f % 2 ^ 23 := rfl
  by_cases h1 : f / 2 ^ 23 % 2 ^ 8 = 255
  · rw [if_pos h1]
    obtain ⟨a1, -, a3, -⟩ := dbl_fields (e := 2047) (m := if f % 2 ^ 23 = 0 then 0 else 2 ^ 51 + f % 2 ^ 23 % 2 ^ 22 * 2 ^ 29) hs (by omega)
      (by split_ifs <;> omega)
    rw [a3, hexp]
    exact ⟨a1, by omega, fun h => absurd h1 h⟩
  · rw [if_neg h1]
    by_cases h2 : f / 2 ^ 23 % 2 ^ 8 = 0
    · rw [if_pos h2]
      by_cases h3 : f % 2 ^ 23 = 0
      · rw [if_pos h3]
        obtain ⟨a1, a2, a3, a4⟩ := dbl_fields (e := 0) (m := 0) hs (by omega) (by omega)
        simp only [Nat.zero_mul, Nat.add_zero] at a1 a2 a3 a4
        refine ⟨a1, by rw [a3, hexp]; omega, fun _ => ?_⟩
        unfold dblScaled fltScaled
        rw [a3, a4, hexp, hfrac, if_pos rfl, if_pos h2, h3]
        simp
      · rw [if_neg h3]
        have hL : Nat.log2 (f % 2 ^ 23) < 23 := (Nat.log2_lt h3).2 hfr
        have hlo := Nat.log2_self_le h3
        have hhi := Nat.lt_log2_self (n := f % 2 ^ 23)
        generalize hl : Nat.log2 (f % 2 ^ 23) = L at *
        generalize hm : f % 2 ^ 23 = m at *
        have hp : 2 ^ L * 2 ^ (52 - L) = 2 ^ 52 := by rw [← pow_add]; congr 1; omega
        have hp' : 2 ^ (L + 1) * 2 ^ (52 - L) = 2 ^ 53 := by rw [← pow_add]; congr 1; omega
        have k1 : 2 ^ 52 ≤ m * 2 ^ (52 - L) := hp ▸ Nat.mul_le_mul_right _ hlo
        have k2 : m * 2 ^ (52 - L) < 2 ^ 53 := hp' ▸ Nat.mul_lt_mul_of_pos_right hhi (by positivity)
        obtain ⟨a1, a2, a3, a4⟩ := dbl_fields (e := L + 874) (m := m * 2 ^ (52 - L) - 2 ^ 52) hs (by omega) (by omega)
        refine ⟨a1, by rw [a3, hexp]; omega, fun _ => ?_⟩
        unfold dblScaled fltScaled
        rw [a2, a3, a4, hexp, hfrac, if_neg (show ¬ L + 874 = 0 by omega), if_pos h2, flt_sign f hf, mul_assoc]
        rw [Nat.add_sub_cancel' k1, mul_assoc, ← pow_add, show 52 - L + (L + 874 - 1) = 925 by omega,
          Nat.cast_mul, Nat.cast_pow, Nat.cast_ofNat]
    · rw [if_neg h2]
      obtain ⟨a1, a2, a3, a4⟩ := dbl_fields (e := f / 2 ^ 23 % 2 ^ 8 + 896) (m := f % 2 ^ 23 * 2 ^ 29) hs (by omega) (by omega)
      refine ⟨a1, iff_of_true (by rw [a3]; omega) (by rw [hexp]; exact h1), fun _ => ?_⟩
      unfold dblScaled fltScaled
      rw [a2, a3, a4, hexp, hfrac, if_neg (show ¬ f / 2 ^ 23 % 2 ^ 8 + 896 = 0 by omega), if_neg h2, flt_sign f hf, mul_assoc]
      generalize f % 2 ^ 23 = m at *
      generalize f / 2 ^ 23 % 2 ^ 8 = e at *
      have : (2 ^ 52 + m * 2 ^ 29) * 2 ^ (e + 896 - 1) = (2 ^ 23 + m) * 2 ^ (e - 1) * 2 ^ 925 := by
        rw [show 2 ^ 52 + m * 2 ^ 29 = (2 ^ 23 + m) * 2 ^ 29 by ring, mul_assoc, mul_assoc, ← pow_add, ← pow_add]
        rw [show 29 + (e + 896 - 1) = e - 1 + 925 by omega]
      rw [this, Nat.cast_mul _ (2 ^ 925), Nat.cast_pow 2 925, Nat.cast_ofNat]

theorem fltMag_of_scaled {f : Nat} (hf : FltFinite f) : (fltScaled f).natAbs = fltMag (f % 2 ^ 31) := by
  have h := (fltScaled_eq f).resolve_right (not_not.2 hf)
  rw [h, Int.natAbs_mul, Int.natAbs_natCast]
  have : (fltSign f).natAbs = 1 := by unfold fltSign; split_ifs <;> rfl
  rw [this, Nat.one_mul]

/-- A nonzero value has one pattern. -/
theorem fltScaled_inj {f g : Nat} (hf : f < 2 ^ 32) (hg : g < 2 ^ 32) (ff : FltFinite f) (fg : FltFinite g)
    (h : fltScaled f = fltScaled g) (h0 : fltScaled f ≠ 0) : f = g := by
  have e1 : f % 2 ^ 31 = g % 2 ^ 31 := fltMag_strictMono.injective (by rw [← fltMag_of_scaled ff, ← fltMag_of_scaled fg, h])
  have h1 := (fltScaled_eq f).resolve_right (not_not.2 ff)
  have h2 := (fltScaled_eq g).resolve_right (not_not.2 fg)
  rw [e1] at h1
  have hm : (fltMag (g % 2 ^ 31) : Int) ≠ 0 := fun hz => h0 (by rw [h1, hz, mul_zero])
  have hs : fltSign f = fltSign g := mul_right_cancel₀ hm (by rw [← h1, ← h2, h])
  rw [flt_sign f hf, flt_sign g hg] at hs
  by_cases hx : f / 2 ^ 31 = 0 <;> by_cases hy : g / 2 ^ 31 = 0
  · omega
  · rw [if_pos hx, if_neg hy] at hs; exact absurd hs (by decide)
  · rw [if_neg hx, if_pos hy] at hs; exact absurd hs (by decide)
  · omega

/-- Integers of at most 24 significant bits below `2^128` are floats. -/
theorem float_of_short {x m : Int} {k : Nat} (hm : |m| < 2 ^ 24) (hx : x = m * 2 ^ k) (hlt : |x| < 2 ^ 128) :
    ∃ g, g < 2 ^ 32 ∧ FltFinite g ∧ fltScaled g = x * 2 ^ 149 := by
  by_cases h0 : m = 0
  · refine ⟨0, by decide, by unfold FltFinite; decide, ?_⟩
    rw [hx, h0, zero_mul, zero_mul]; decide
  have hn : m.natAbs ≠ 0 := by omega
  have hm' : m.natAbs < 2 ^ 24 := by rw [Int.abs_eq_natAbs] at hm; omega
  have hxn : x.natAbs = m.natAbs * 2 ^ k := by rw [hx, Int.natAbs_mul, Int.natAbs_pow]; rfl
  have hL : Nat.log2 m.natAbs < 24 := (Nat.log2_lt hn).2 hm'
  have hlo := Nat.log2_self_le hn
  have hhi := Nat.lt_log2_self (n := m.natAbs)
  have hx' : x.natAbs < 2 ^ 128 := by rw [Int.abs_eq_natAbs] at hlt; exact_mod_cast hlt
  generalize Nat.log2 m.natAbs = L at *
  have hkL : L + k < 128 := by
    have : 2 ^ (L + k) < 2 ^ 128 := by
      rw [pow_add]; exact lt_of_le_of_lt (Nat.mul_le_mul_right _ hlo) (hxn ▸ hx')
    exact (Nat.pow_lt_pow_iff_right (by decide)).1 this
  generalize m.natAbs = n at *
  have hp : 2 ^ L * 2 ^ (23 - L) = 2 ^ 23 := by rw [← pow_add]; congr 1; omega
  have hp' : 2 ^ (L + 1) * 2 ^ (23 - L) = 2 ^ 24 := by rw [← pow_add]; congr 1; omega
  have k1 : 2 ^ 23 ≤ n * 2 ^ (23 - L) := hp ▸ Nat.mul_le_mul_right _ hlo
  have k2 : n * 2 ^ (23 - L) < 2 ^ 24 := hp' ▸ Nat.mul_lt_mul_of_pos_right hhi (by positivity)
  have hmag := fltMag_normal (m := n * 2 ^ (23 - L)) (j := k + 126 + L) k1 k2.le
  rw [mul_assoc, ← pow_add, show 23 - L + (k + 126 + L) = k + 149 by omega] at hmag
  generalize hq : n * 2 ^ (23 - L) + (k + 126 + L) * 2 ^ 23 = q at *
  have hq' : q < 255 * 2 ^ 23 := by omega
  by_cases hneg : x < 0
  · refine ⟨2 ^ 31 + q, by omega, fltFinite_iff.2 (by omega), ?_⟩
    have h := (fltScaled_eq (2 ^ 31 + q)).resolve_right (not_not.2 (fltFinite_iff.2 (by omega)))
    rw [h, show (2 ^ 31 + q) % 2 ^ 31 = q by omega, hmag, fltSign, if_neg (by omega)]
    have : x = -(x.natAbs : Int) := by omega
    rw [this, hxn, pow_add]; push_cast; ring
  · refine ⟨q, by omega, fltFinite_iff.2 (by omega), ?_⟩
    have h := (fltScaled_eq q).resolve_right (not_not.2 (fltFinite_iff.2 (by omega)))
    rw [h, show q % 2 ^ 31 = q by omega, hmag, fltSign, if_pos (by omega)]
    have : x = (x.natAbs : Int) := by omega
    rw [this, hxn, pow_add]; push_cast; ring

/-- A float that is an integer has at most 24 significant bits and is below `2^128 - 2^103`. -/
theorem short_of_float {y : Int} {f : Nat} (hf : FltFinite f) (h : fltScaled f = y * 2 ^ 149) :
    (∃ (m : Int) (k : Nat), |m| < 2 ^ 24 ∧ y = m * 2 ^ k) ∧ |y| < 2 ^ 128 - 2 ^ 103 := by
  have hm := fltMag_of_scaled hf
  rw [h, Int.natAbs_mul, Int.natAbs_pow] at hm
  change y.natAbs * 2 ^ 149 = _ at hm
  have hfin := fltFinite_iff.1 hf
  generalize f % 2 ^ 31 = p at *
  have hb : y.natAbs < 2 ^ 128 - 2 ^ 103 := by
    have h1 : fltMag p ≤ fltMag (255 * 2 ^ 23 - 1) := fltMag_strictMono.monotone (by omega)
    have h2 := fltLimit_eq.1
    have h3 : fltMag p < fltLimit := by rw [h2]; exact lt_of_le_of_lt h1 (Nat.lt_add_of_pos_right (by positivity))
    rw [← hm, fltLimit_eq'] at h3
    exact Nat.lt_of_mul_lt_mul_right h3
  refine ⟨?_, by rw [Int.abs_eq_natAbs]; omega⟩
  suffices hs : ∃ m k : Nat, m < 2 ^ 24 ∧ y.natAbs = m * 2 ^ k by
    obtain ⟨m, k, h1, h2⟩ := hs
    rcases le_or_gt 0 y with hy | hy
    · exact ⟨m, k, by rw [abs_of_nonneg (by omega)]; exact_mod_cast h1, by
        have : y = (y.natAbs : Int) := by omega
        rw [this, h2]; push_cast; rfl⟩
    · exact ⟨-m, k, by rw [abs_neg, abs_of_nonneg (by omega)]; exact_mod_cast h1, by
        have : y = -(y.natAbs : Int) := by omega
        rw [this, h2]; push_cast; ring⟩
  by_cases hs : y.natAbs < 2 ^ 24
  · exact ⟨y.natAbs, 0, hs, by rw [pow_zero, mul_one]⟩
  · unfold fltMag at hm
    by_cases hp : p < 2 ^ 23
    · rw [if_pos hp] at hm
      have : y.natAbs * 1 ≤ y.natAbs * 2 ^ 149 := Nat.mul_le_mul_left _ Nat.one_le_two_pow
      omega
    · rw [if_neg hp] at hm
      have hj : 149 ≤ p / 2 ^ 23 - 1 := by
        by_contra hc
        have h1 : (2 ^ 23 + p % 2 ^ 23) * 2 ^ (p / 2 ^ 23 - 1) < 2 ^ 24 * 2 ^ 149 :=
          lt_of_lt_of_le (Nat.mul_lt_mul_of_pos_right (by omega) (by positivity)) (Nat.mul_le_mul_left _ (Nat.pow_le_pow_right (by decide) (by omega)))
        rw [← hm] at h1
        exact hs (Nat.lt_of_mul_lt_mul_right h1)
      refine ⟨2 ^ 23 + p % 2 ^ 23, p / 2 ^ 23 - 1 - 149, by omega, ?_⟩
      have : (p / 2 ^ 23 - 1 - 149) + 149 = p / 2 ^ 23 - 1 := by omega
      rw [← this, pow_add, ← mul_assoc] at hm
      exact Nat.eq_of_mul_eq_mul_right (by positivity) hm

/-- Floats from `2^23` on are integers. -/
theorem whole_of_large {p : Nat} (h : 2 ^ 23 * 2 ^ 149 ≤ fltMag p) : ∃ y, fltMag p = y * 2 ^ 149 := by
  unfold fltMag at h ⊢
  by_cases hp : p < 2 ^ 23
  · rw [if_pos hp] at h
    have : 2 ^ 23 * 1 ≤ 2 ^ 23 * 2 ^ 149 := Nat.mul_le_mul_left _ Nat.one_le_two_pow
    omega
  · rw [if_neg hp] at h ⊢
    have hj : 149 ≤ p / 2 ^ 23 - 1 := by
      by_contra hc
      have h1 : (2 ^ 23 + p % 2 ^ 23) * 2 ^ (p / 2 ^ 23 - 1) < 2 ^ 24 * 2 ^ 148 :=
        lt_of_lt_of_le (Nat.mul_lt_mul_of_pos_right (by omega) (by positivity)) (Nat.mul_le_mul_left _ (Nat.pow_le_pow_right (by decide) (by omega)))
      rw [← pow_add] at h h1
      exact absurd (lt_of_le_of_lt h h1) (by decide)
    refine ⟨(2 ^ 23 + p % 2 ^ 23) * 2 ^ (p / 2 ^ 23 - 1 - 149), ?_⟩
    rw [mul_assoc, ← pow_add, Nat.sub_add_cancel hj]

end BigIntegerCpp
