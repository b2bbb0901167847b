import Verif.Lemmas.Float
import Verif.Lemmas.FloatTwice
import Verif.Props.Samples
/-
C48: classification of doubles.  C49: conversion to float.
-/
namespace BigIntegerCpp
open Samples
variable [Cfg]

/-! ### C48 -/

/-- `double_IsFinite`, `double_IsInfinity` and `double_IsNaN` on every bit pattern. -/
theorem C48_classification (d : Nat) (hd : d < 2 ^ 64) :
    (doubleIsFinite d = true ↔ DblFinite d) ∧ (doubleIsInfinity d = true ↔ DblInfinite d) ∧ (doubleIsNaN d = true ↔ DblNaN d) := by
  refine ⟨doubleIsFinite_iff d hd, ?_, ?_⟩
  · have h1 : d &&& 0x7FFFFFFFFFFFFFFF = d % 2 ^ 63 := mask_and d 63
    unfold doubleIsInfinity DblInfinite dblExp dblFrac
    rw [h1, decide_eq_true_eq]
    omega
  · have h1 : d &&& 0x7FFFFFFFFFFFFFFF = d % 2 ^ 63 := mask_and d 63
    unfold doubleIsNaN DblNaN dblExp dblFrac
    rw [h1, decide_eq_true_eq]
    omega

/-- Exactly one of the three answers is true. -/
theorem C48_exclusive (d : Nat) (hd : d < 2 ^ 64) :
    (doubleIsFinite d, doubleIsInfinity d, doubleIsNaN d) ∈ [(true, false, false), (false, true, false), (false, false, true)] := by
  obtain ⟨h1, h2, h3⟩ := C48_classification d hd
  have e : DblFinite d ↔ ¬ DblInfinite d ∧ ¬ DblNaN d := by unfold DblFinite DblInfinite DblNaN; tauto
  have e' : DblInfinite d → ¬ DblNaN d := by unfold DblInfinite DblNaN; tauto
  cases h : doubleIsFinite d <;> cases h' : doubleIsInfinity d <;> cases h'' : doubleIsNaN d <;> simp_all

/-- 1.5, minus infinity, a quiet NaN. -/
example : doubleIsFinite 0x3FF8000000000000 = true ∧ doubleIsInfinity 0xFFF0000000000000 = true ∧
    doubleIsNaN 0x7FF8000000000000 = true := by decide
example : DblFinite 0x3FF8000000000000 ∧ DblInfinite 0xFFF0000000000000 ∧ DblNaN 0x7FF8000000000000 := by
  unfold DblFinite DblInfinite DblNaN; decide

/-! ### C49 -/

/-- What the conversion does in general: the nearest float to the value with all but its 53 leading
bits cleared. -/
theorem C49_nearest_of_truncated (a : BigInt) (x : Int) (ha : a.Denotes x) (h : |x| < 2 ^ 128 - 2 ^ 103) :
    ∃ f, a.toFloat = .ok f ∧ NearestFloat 149 ((if x < 0 then -1 else 1) * (keepBits 53 x.natAbs : Nat) * 2 ^ 149) f := by
  have hx : x.natAbs < 2 ^ 128 - 2 ^ 103 := by rw [Int.abs_eq_natAbs] at h; omega
  have hlen : a.bits.length ≤ 4 := ha.length_le (lt_trans hx (by decide))
  obtain ⟨f, e, k, -⟩ := toFloat_spec ha (by omega)
  exact ⟨f, e, k hx⟩

/-- C49, partial: the full statement has no hypothesis `hk`, which says that the value fits in 53
bits, trailing zeros aside; in particular it holds below `2^53`. -/
theorem C49_to_float_partial (a : BigInt) (x : Int) (ha : a.Denotes x) (h : |x| < 2 ^ 128 - 2 ^ 103)
    (hk : keepBits 53 x.natAbs = x.natAbs) : ∃ f, a.toFloat = .ok f ∧ NearestFloat 149 (x * 2 ^ 149) f := by
  obtain ⟨f, e, k⟩ := C49_nearest_of_truncated a x ha h
  rw [hk, show ((if x < 0 then -1 else 1) * (x.natAbs : Nat) : Int) = x by split_ifs <;> omega] at k
  exact ⟨f, e, k⟩

theorem C49_below_53_bits (a : BigInt) (x : Int) (ha : a.Denotes x) (h : |x| < 2 ^ 53) :
    ∃ f, a.toFloat = .ok f ∧ NearestFloat 149 (x * 2 ^ 149) f :=
  C49_to_float_partial a x ha (lt_trans h (by decide)) (keepBits_small (by rw [Int.abs_eq_natAbs] at h; omega))

omit [Cfg] in
private theorem no_float_between {N K G : Nat} {F S : Int} (c : Prop) [Decidable c] (hle : K ≤ N) (hkeep : G ≤ N → G ≤ K)
    (hG : S = G ∨ S = -(G : Int)) (h : |(if c then -1 else 1) * (K : Int) - F| ≤ |(if c then -1 else 1) * (K : Int) - S|) :
    ¬ ((if c then -1 else 1) * (N : Int) < S ∧ S < F) ∧ ¬ (F < S ∧ S < (if c then -1 else 1) * (N : Int)) := by
  by_cases hneg : c
  · rw [if_pos hneg] at h ⊢
    constructor <;> rintro ⟨c1, c2⟩ <;> rcases abs_cases (-1 * (K : Int) - F) with ⟨a1, a2⟩ | ⟨a1, a2⟩ <;>
      rcases abs_cases (-1 * (K : Int) - S) with ⟨b1, b2⟩ | ⟨b1, b2⟩ <;> omega
  · rw [if_neg hneg] at h ⊢
    constructor <;> rintro ⟨c1, c2⟩ <;> rcases abs_cases (1 * (K : Int) - F) with ⟨a1, a2⟩ | ⟨a1, a2⟩ <;>
      rcases abs_cases (1 * (K : Int) - S) with ⟨b1, b2⟩ | ⟨b1, b2⟩ <;> omega

/-- In general the result is one of the two neighbours: no finite float lies strictly between the
value and the result. -/
theorem C49_faithful (a : BigInt) (x : Int) (ha : a.Denotes x) (h : |x| < 2 ^ 128 - 2 ^ 103) :
    ∃ f, a.toFloat = .ok f ∧ FltFinite f ∧ ∀ g, g < 2 ^ 32 → FltFinite g →
      ¬ (x * 2 ^ 149 < fltScaled g ∧ fltScaled g < fltScaled f) ∧ ¬ (fltScaled f < fltScaled g ∧ fltScaled g < x * 2 ^ 149) := by
  obtain ⟨f, e, k1, k2, k3⟩ := C49_nearest_of_truncated a x ha h
  refine ⟨f, e, k2, fun g hg hgf => ?_⟩
  obtain ⟨k4, -⟩ := k3 g hg hgf
  have hx : x * 2 ^ 149 = (if x < 0 then -1 else 1) * ((x.natAbs * 2 ^ 149 : Nat) : Int) := by
    rw [Nat.cast_mul, Nat.cast_pow, Nat.cast_ofNat, ← mul_assoc]
    congr 1
    split_ifs <;> omega
  rw [show 149 - 149 = 0 from rfl, pow_zero, mul_one, mul_one] at k4
  rw [show ((if x < 0 then -1 else 1) * (keepBits 53 x.natAbs : Nat) * 2 ^ 149 : Int) =
    (if x < 0 then -1 else 1) * ((keepBits 53 x.natAbs * 2 ^ 149 : Nat) : Int) by
      rw [Nat.cast_mul, Nat.cast_pow, Nat.cast_ofNat, mul_assoc]] at k4
  have hle : keepBits 53 x.natAbs * 2 ^ 149 ≤ x.natAbs * 2 ^ 149 := Nat.mul_le_mul_right _ (keepBits_le _)
  have hgs := (fltScaled_eq g).resolve_right (not_not.2 hgf)
  have hkeep := fun hh => fltMag_le_keep (n := x.natAbs) (p := g % 2 ^ 31) hh
  have hsg : fltSign g = 1 ∨ fltSign g = -1 := by unfold fltSign; split_ifs <;> simp
  have hG : fltScaled g = fltMag (g % 2 ^ 31) ∨ fltScaled g = -(fltMag (g % 2 ^ 31) : Int) := by
    rw [hgs]; rcases hsg with h | h <;> rw [h]
    · left; exact one_mul _
    · right; exact neg_one_mul _
  rw [hx]
  exact no_float_between (x < 0) hle hkeep hG k4

/-- A value that is a float is converted without error. -/
theorem C49_exact (a : BigInt) (x : Int) (ha : a.Denotes x) (g : Nat) (hg : g < 2 ^ 32) (hgf : FltFinite g)
    (hx : fltScaled g = x * 2 ^ 149) : ∃ f, a.toFloat = .ok f ∧ FltFinite f ∧ fltScaled f = x * 2 ^ 149 := by
  have hgs := (fltScaled_eq g).resolve_right (not_not.2 hgf)
  have hsg : fltSign g = 1 ∨ fltSign g = -1 := by unfold fltSign; split_ifs <;> simp
  have hm : fltMag (g % 2 ^ 31) = x.natAbs * 2 ^ 149 := by
    have := congrArg Int.natAbs (hgs.symm.trans hx)
    rw [Int.natAbs_mul, Int.natAbs_natCast, Int.natAbs_mul, Int.natAbs_pow] at this
    rcases hsg with h | h <;> rw [h] at this
    · rw [show (1 : Int).natAbs = 1 from rfl, Nat.one_mul] at this; exact this
    · rw [show (-1 : Int).natAbs = 1 from rfl, Nat.one_mul] at this; exact this
  have hlt : |x| < 2 ^ 128 - 2 ^ 103 := by
    have h1 : fltMag (g % 2 ^ 31) < fltLimit := by
      rw [fltLimit_eq.1]
      have := fltMag_strictMono.monotone (show g % 2 ^ 31 ≤ 255 * 2 ^ 23 - 1 by have := fltFinite_iff.1 hgf; omega)
      exact lt_of_le_of_lt this (Nat.lt_add_of_pos_right (Nat.two_pow_pos _))
    rw [hm, fltLimit_eq'] at h1
    have := Nat.lt_of_mul_lt_mul_right h1
    rw [Int.abs_eq_natAbs]
    omega
  have hk : keepBits 53 x.natAbs = x.natAbs := by
    have h1 := fltMag_le_keep (n := x.natAbs) (p := g % 2 ^ 31) (le_of_eq hm)
    rw [hm] at h1
    exact le_antisymm (keepBits_le _) (Nat.le_of_mul_le_mul_right h1 (Nat.two_pow_pos _))
  obtain ⟨f, e, k1, k2, k3⟩ := C49_to_float_partial a x ha hlt hk
  refine ⟨f, e, k2, ?_⟩
  obtain ⟨k4, -⟩ := k3 g hg hgf
  rw [show 149 - 149 = 0 from rfl, pow_zero, mul_one, mul_one, hx, sub_self, abs_zero] at k4
  have := abs_eq_zero.1 (le_antisymm k4 (abs_nonneg _))
  omega

/-- Out of range: the infinity of the right sign. -/
theorem C49_infinity (a : BigInt) (x : Int) (ha : a.Denotes x) (fa : a.Fits) (h : 2 ^ 128 - 2 ^ 103 ≤ |x|) :
    a.toFloat = .ok (fltInfinity (decide (x < 0))) := by
  obtain ⟨f, e, -, k⟩ := toFloat_spec ha (Nat.lt_succ_of_lt fa)
  rw [e, k (by rw [Int.abs_eq_natAbs] at h; omega)]

example : ∃ f, neg3.toFloat = .ok f ∧ FltFinite f ∧ ∀ g, g < 2 ^ 32 → FltFinite g →
    ¬ (-18446744103774322693 * 2 ^ 149 < fltScaled g ∧ fltScaled g < fltScaled f) ∧
    ¬ (fltScaled f < fltScaled g ∧ fltScaled g < -18446744103774322693 * 2 ^ 149) :=
  C49_faithful _ _ neg3_denotes (by decide)
example : ∃ f, pos2.toFloat = .ok f ∧ NearestFloat 149 (38654705667 * 2 ^ 149) f := C49_below_53_bits _ _ pos2_denotes (by decide)
/-- 16777215 is a float. -/
example : fltScaled 0x4B7FFFFF = 16777215 * 2 ^ 149 ∧ FltFinite 0x4B7FFFFF := by unfold FltFinite; decide
example : BigInt.toFloat ⟨-1, [0, 0, 0, 0, 1]⟩ = .ok (fltInfinity true) :=
  C49_infinity _ (-2 ^ 128) (BigInt.denotes_big (.inr rfl) (by decide) (by decide) (by decide) (by decide) (by decide)) (by decide)
    (by decide)

/-- Exactly which values are converted wrongly. -/
theorem C49_exact_iff (a : BigInt) (x : Int) (ha : a.Denotes x) (h : |x| < 2 ^ 128 - 2 ^ 103) :
    (∃ f, a.toFloat = .ok f ∧ NearestFloat 149 (x * 2 ^ 149) f) ↔ ¬ RoundsTwice x.natAbs := by
  obtain ⟨f, e, k⟩ := C49_nearest_of_truncated a x ha h
  have hx : x.natAbs < 2 ^ 128 := by rw [Int.abs_eq_natAbs] at h; omega
  have hsame : (∃ f, a.toFloat = .ok f ∧ NearestFloat 149 (x * 2 ^ 149) f) ↔ NearestFloat 149 (x * 2 ^ 149) f := by
    refine ⟨?_, fun h => ⟨f, e, h⟩⟩
    rintro ⟨g, e', h'⟩
    rw [Res.ok.inj (e.symm.trans e')]
    exact h'
  rw [hsame]
  by_cases hn : x < 0
  · rw [if_pos hn] at k
    have h1 : NearestFloat 149 ((keepBits 53 x.natAbs : Nat) * 2 ^ 149) (fltFlip f) := by
      have := nearest_flip k
      rwa [neg_one_mul, neg_mul, neg_neg] at this
    rw [← twice_iff hx h1, ← nearest_flip_iff k.1, ← neg_mul, show -x = (x.natAbs : Int) by omega]
  · rw [if_neg hn, one_mul] at k
    rw [← twice_iff hx k, show (x.natAbs : Int) = x by omega]
/-- `2^60 + 2^36 + 1`, and a value that is right although bits are lost. -/
example : RoundsTwice (2 ^ 60 + 2 ^ 36 + 1) := ⟨2 ^ 23, 37, 1, by decide⟩
example : ∃ f, neg3.toFloat = .ok f ∧ NearestFloat 149 (-18446744103774322693 * 2 ^ 149) f := by
  refine (C49_exact_iff _ _ neg3_denotes (by decide)).2 ?_
  rintro ⟨m, s, r, h1, h2, h3, h4, h5, h6, h7⟩
  have hn : (-18446744103774322693 : Int).natAbs = 18446744103774322693 := rfl
  rw [hn] at h7
  have hlo : s ≤ 41 := by
    by_contra c
    have := Nat.mul_le_mul h1 (Nat.pow_le_pow_right (show 0 < 2 by decide) (show 42 ≤ s by omega))
    generalize 2 ^ (s - 1) = w at *
    omega
  have hhi : 40 ≤ s := by
    by_contra c
    have e1 := Nat.mul_le_mul (show m ≤ 2 ^ 24 - 1 by omega) (Nat.pow_le_pow_right (show 0 < 2 by decide) (show s ≤ 39 by omega))
    have e2 := Nat.pow_le_pow_right (show 0 < 2 by decide) (show s - 1 ≤ 38 by omega)
    have e3 := Nat.pow_le_pow_right (show 0 < 2 by decide) (show s - 29 ≤ 10 by omega)
    omega
  interval_cases s <;> omega

/-- C49 as stated is false: `2^60 + 2^36 + 1` is rounded down to `2^60` although `2^60 + 2^37` is
closer, because the last 1 is lost on the way through `double`. -/
theorem C49_refuted : ∃ (a : BigInt) (f : Nat), a.Denotes (2 ^ 60 + 2 ^ 36 + 1) ∧ a.toFloat = .ok f ∧
    ¬ NearestFloat 149 ((2 ^ 60 + 2 ^ 36 + 1) * 2 ^ 149) f := by
  refine ⟨⟨1, [1, 2 ^ 28 + 2 ^ 4]⟩, 187 * 2 ^ 23,
    BigInt.denotes_big (.inl rfl) (by decide) (by decide) (by decide) (by decide) (by decide), by decide +kernel, ?_⟩
  rintro ⟨-, -, h⟩
  have := (h (187 * 2 ^ 23 + 1) (by decide) (by unfold FltFinite; decide)).1
  revert this
  decide +kernel

/-! ### instances of the remaining theorems -/

example : ∃ f, neg3.toFloat = .ok f ∧ NearestFloat 149 ((if (-18446744103774322693 : Int) < 0 then -1 else 1) *
    (keepBits 53 (-18446744103774322693 : Int).natAbs : Nat) * 2 ^ 149) f :=
  C49_nearest_of_truncated _ _ neg3_denotes (by decide)
example : ∃ f, BigInt.toFloat ⟨16777215, []⟩ = .ok f ∧ FltFinite f ∧ fltScaled f = 16777215 * 2 ^ 149 :=
  C49_exact _ 16777215 (BigInt.denotes_small (by decide) (by decide)) 0x4B7FFFFF (by decide) (by unfold FltFinite; decide) (by decide)

end BigIntegerCpp
