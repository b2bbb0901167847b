import Verif.Lemmas.FloatBack
import Verif.Props.Float
import Verif.Props.Convert
import Verif.Lemmas.PowProps
/-
C94: numbers that go through `float`, in either direction.
-/
set_option linter.unusedSectionVars false
namespace BigIntegerCpp
open Samples
variable [Cfg]

/-- C94.  A finite `float` given to the constructor is truncated toward zero (`fltScaled` is the value times `2^149`). -/
theorem C94_of_float (f : Nat) (hf : f < 2 ^ 32) (hfin : FltFinite f) : Returns (ofFloat f) ((fltScaled f).tdiv (2 ^ 149)) := by
  obtain ⟨h1, h2, h3⟩ := floatToDouble_spec hf
  have h := C36_of_double _ h1 (h2.2 hfin)
  have : (dblScaled (floatToDouble f)).tdiv (2 ^ 1074) = (fltScaled f).tdiv (2 ^ 149) := by
    rw [h3 hfin, show (2 : Int) ^ 1074 = 2 ^ 149 * 2 ^ 925 by rw [← pow_add], Int.mul_tdiv_mul_of_pos_left _ _ (pow_pos (by decide) _)]
  rwa [this] at h

/-- C94.  Infinities and NaNs throw. -/
theorem C94_of_float_not_finite (f : Nat) (hf : f < 2 ^ 32) (hfin : ¬ FltFinite f) : ofFloat f = .throw .overflowError := by
  obtain ⟨h1, h2, -⟩ := floatToDouble_spec hf
  exact C36_not_finite _ h1 (mt h2.1 hfin)

/-- C94.  A `float` that is an integer, other than minus zero, comes back bit for bit. -/
theorem C94_float_round_trip (f : Nat) (hf : f < 2 ^ 32) (hfin : FltFinite f) (n : Int) (hn : fltScaled f = n * 2 ^ 149)
    (hz : f ≠ 2 ^ 31) : ∃ b, ofFloat f = .ok b ∧ b.Denotes n ∧ b.toFloat = .ok f := by
  obtain ⟨b, h1, h2⟩ := C94_of_float f hf hfin
  rw [hn, Int.mul_tdiv_cancel _ (pow_ne_zero _ (by decide))] at h2
  refine ⟨b, h1, h2, ?_⟩
  by_cases h0 : n = 0
  · subst h0
    have hb : b = ⟨0, []⟩ := h2.unique (BigInt.denotes_small (by decide) (by decide))
    have hm := fltMag_of_scaled hfin
    rw [hn, zero_mul] at hm
    have : f % 2 ^ 31 = 0 := fltMag_strictMono.injective (by rw [← hm]; rfl)
    obtain rfl : f = 0 := by omega
    rw [hb]
    rename_i c
    obtain ⟨d, s⟩ := c
    cases d <;> cases s <;> decide +kernel
  · have hlt := (short_of_float hfin hn).2
    obtain ⟨g, k1, k2, k3⟩ := C49_exact b n h2 f hf hfin hn
    obtain ⟨g', k1', hg, -⟩ := C49_nearest_of_truncated b n h2 hlt
    obtain rfl := Res.ok.inj (k1.symm.trans k1')
    rw [k1, fltScaled_inj hg hf k2 hfin (k3.trans hn.symm) (by rw [k3]; exact mul_ne_zero h0 (pow_ne_zero _ (by decide)))]

private theorem through {a : BigInt} {f : Nat} {y : Int} (e : a.toFloat = .ok f) (hf : f < 2 ^ 32) (hfin : FltFinite f)
    (hy : fltScaled f = y * 2 ^ 149) : Returns a.throughFloat y := by
  have h := C94_of_float f hf hfin
  rw [hy, Int.mul_tdiv_cancel _ (pow_ne_zero _ (by decide))] at h
  unfold BigInt.throughFloat
  rw [e, Res.ok_bind]
  exact h

private theorem through_exact {a : BigInt} {g : Nat} {y : Int} (ha : a.Denotes y) (hg : g < 2 ^ 32) (hfin : FltFinite g)
    (hy : fltScaled g = y * 2 ^ 149) : Returns a.throughFloat y := by
  obtain ⟨f, e, k2, k3⟩ := C49_exact a y ha g hg hfin hy
  obtain ⟨f', e', hf, -⟩ := C49_nearest_of_truncated a y ha (short_of_float hfin hy).2
  obtain rfl := Res.ok.inj (e.symm.trans e')
  exact through e hf k2 k3

/-- C94.  `BigInteger((float) a)` returns a number of at most 24 significant bits that differs from `a` by less than one
unit in the last of them; a second time changes nothing. -/
theorem C94_through_float (a : BigInt) (x : Int) (ha : a.Denotes x) (h : |x| < 2 ^ 128 - 2 ^ 103) :
    ∃ y, Returns a.throughFloat y ∧ (∃ (m : Int) (k : Nat), |m| < 2 ^ 24 ∧ y = m * 2 ^ k) ∧ 2 ^ 23 * |y - x| ≤ |x| ∧
      ∀ b : BigInt, b.Denotes y → Returns b.throughFloat y := by
  have hT : (0 : Int) < 2 ^ 149 := pow_pos (by decide) _
  -- it is enough to find the value of the float
  suffices hv : ∃ f y, a.toFloat = .ok f ∧ f < 2 ^ 32 ∧ FltFinite f ∧ fltScaled f = y * 2 ^ 149 ∧ 2 ^ 23 * |y - x| ≤ |x| by
    obtain ⟨f, y, e, hf, hfin, hy, herr⟩ := hv
    refine ⟨y, through e hf hfin hy, (short_of_float hfin hy).1, herr, fun b hb => ?_⟩
    exact through_exact hb hf hfin hy
  obtain ⟨f, e, hf, hfin, hnear⟩ := C49_nearest_of_truncated a x ha h
  have hx : x.natAbs < 2 ^ 128 - 2 ^ 103 := by rw [Int.abs_eq_natAbs] at h; omega
  by_cases hs : x.natAbs < 2 ^ 24
  · obtain ⟨g, g1, g2, g3⟩ := float_of_short (x := x) (m := x) (k := 0) (by rw [Int.abs_eq_natAbs]; omega) (by rw [pow_zero, mul_one])
      (by rw [Int.abs_eq_natAbs]; omega)
    obtain ⟨f', e', -, hv⟩ := C49_exact a x ha g g1 g2 g3
    obtain rfl := Res.ok.inj (e.symm.trans e')
    exact ⟨f, x, e, hf, hfin, hv, by rw [sub_self, abs_zero, mul_zero]; exact abs_nonneg x⟩
  · have hn : x.natAbs ≠ 0 := by omega
    have hL : 24 ≤ Nat.log2 x.natAbs := (Nat.le_log2 hn).2 (by omega)
    have hlo := Nat.log2_self_le hn
    have hhi := Nat.lt_log2_self (n := x.natAbs)
    generalize Nat.log2 x.natAbs = L at *
    -- the value cut to 24 bits is a float
    have hq : x.natAbs / 2 ^ (L - 23) < 2 ^ 24 := by
      rw [Nat.div_lt_iff_lt_mul (by positivity), ← pow_add]
      rwa [show 24 + (L - 23) = L + 1 by omega]
    have hlow : x.natAbs / 2 ^ (L - 23) * 2 ^ (L - 23) ≤ x.natAbs := Nat.div_mul_le_self _ _
    have hclose : x.natAbs < x.natAbs / 2 ^ (L - 23) * 2 ^ (L - 23) + 2 ^ (L - 23) := by
      have := Nat.mod_lt x.natAbs (show 0 < 2 ^ (L - 23) by positivity)
      have := Nat.div_add_mod' x.natAbs (2 ^ (L - 23))
      omega
    have hbig : 2 ^ L ≤ x.natAbs / 2 ^ (L - 23) * 2 ^ (L - 23) := by
      have : 2 ^ 23 ≤ x.natAbs / 2 ^ (L - 23) := by
        rw [Nat.le_div_iff_mul_le (by positivity), ← pow_add]
        rwa [show 23 + (L - 23) = L by omega]
      have h2 := Nat.mul_le_mul_right (2 ^ (L - 23)) this
      rwa [← pow_add, show 23 + (L - 23) = L by omega] at h2
    have hkeep : x.natAbs / 2 ^ (L - 23) * 2 ^ (L - 23) ≤ keepBits 53 x.natAbs := by
      have := keepBits_greatest (n := x.natAbs) (m := x.natAbs / 2 ^ (L - 23)) (j := L - 23 + 149) (by omega)
        (by rw [pow_add, ← mul_assoc]; exact Nat.mul_le_mul_right _ hlow)
      rw [pow_add, ← mul_assoc] at this
      exact Nat.le_of_mul_le_mul_right this (by positivity)
    have hle := keepBits_le x.natAbs
    obtain ⟨g, g1, g2, g3⟩ := float_of_short (x := (if x < 0 then -1 else 1) * ((x.natAbs / 2 ^ (L - 23) * 2 ^ (L - 23) : Nat) : Int))
      (m := (if x < 0 then -1 else 1) * ((x.natAbs / 2 ^ (L - 23) : Nat) : Int)) (k := L - 23)
      (by
        rw [abs_mul, show |(if x < 0 then (-1 : Int) else 1)| = 1 by split_ifs <;> rfl, one_mul, abs_of_nonneg (by positivity)]
        exact_mod_cast hq)
      (by push_cast; ring)
      (by
        rw [abs_mul, show |(if x < 0 then (-1 : Int) else 1)| = 1 by split_ifs <;> rfl, one_mul, abs_of_nonneg (by positivity)]
        have : x.natAbs / 2 ^ (L - 23) * 2 ^ (L - 23) < 2 ^ 128 := by omega
        exact_mod_cast this)
    have hd := (hnear g g1 g2).1
    rw [Nat.sub_self, pow_zero, mul_one, mul_one, g3] at hd
    have hxs : x = (if x < 0 then -1 else 1) * (x.natAbs : Int) := by split_ifs <;> omega
    have hss : (if x < 0 then (-1 : Int) else 1) = 1 ∨ (if x < 0 then (-1 : Int) else 1) = -1 := by split_ifs <;> simp
    generalize (if x < 0 then (-1 : Int) else 1) = s at *
    generalize x.natAbs / 2 ^ (L - 23) * 2 ^ (L - 23) = low at *
    generalize keepBits 53 x.natAbs = K at *
    -- the distance of the float from the value
    have hdist : |x * 2 ^ 149 - fltScaled f| ≤ ((x.natAbs : Int) - low) * 2 ^ 149 := by
      have h1 : |s * (K : Int) * 2 ^ 149 - s * (low : Int) * 2 ^ 149| = ((K : Int) - low) * 2 ^ 149 := by
        rw [← sub_mul, ← mul_sub, abs_mul, abs_mul, abs_of_pos hT, abs_of_nonneg (show (0 : Int) ≤ (K : Int) - low by omega)]
        rcases hss with h | h <;> rw [h] <;> norm_num
      have h2 : |x * 2 ^ 149 - s * (K : Int) * 2 ^ 149| = ((x.natAbs : Int) - K) * 2 ^ 149 := by
        conv_lhs => rw [hxs]
        rw [← sub_mul, ← mul_sub, abs_mul, abs_mul, abs_of_pos hT, abs_of_nonneg (show (0 : Int) ≤ (x.natAbs : Int) - K by omega)]
        rcases hss with h | h <;> rw [h] <;> norm_num
      rw [h1] at hd
      have h3 := abs_sub_le (x * 2 ^ 149) (s * (K : Int) * 2 ^ 149) (fltScaled f)
      rw [h2] at h3
      calc _ ≤ _ := h3
        _ ≤ ((x.natAbs : Int) - K) * 2 ^ 149 + ((K : Int) - low) * 2 ^ 149 := by omega
        _ = _ := by ring
    -- so it is large, and an integer
    have hmag : 2 ^ 23 * 2 ^ 149 ≤ fltMag (f % 2 ^ 31) := by
      rw [← fltMag_of_scaled hfin]
      have h1 : (low : Int) * 2 ^ 149 ≤ |fltScaled f| := by
        have h2 := abs_sub_abs_le_abs_sub (x * 2 ^ 149) (fltScaled f)
        rw [abs_mul, abs_of_pos hT, Int.abs_eq_natAbs x] at h2
        have : ((x.natAbs : Int) - low) * 2 ^ 149 = (x.natAbs : Int) * 2 ^ 149 - (low : Int) * 2 ^ 149 := by ring
        omega
      rw [Int.abs_eq_natAbs] at h1
      have h2 : low * 2 ^ 149 ≤ (fltScaled f).natAbs := by exact_mod_cast h1
      refine le_trans (Nat.mul_le_mul_right _ (le_trans ?_ hbig)) h2
      exact Nat.pow_le_pow_right (by decide) (by omega)
    obtain ⟨w, hw⟩ := whole_of_large hmag
    have hv : fltScaled f = fltSign f * (w : Int) * 2 ^ 149 := by
      rw [(fltScaled_eq f).resolve_right (not_not.2 hfin), hw]; push_cast; ring
    refine ⟨f, fltSign f * w, e, hf, hfin, hv, ?_⟩
    rw [hv, ← sub_mul, abs_mul, abs_of_pos hT] at hdist
    have h1 := le_of_mul_le_mul_right hdist hT
    rw [abs_sub_comm] at h1
    have h2 : |fltSign f * (w : Int) - x| < 2 ^ (L - 23) := by
      have : ((x.natAbs : Int) - low) < ((2 ^ (L - 23) : Nat) : Int) := by omega
      exact lt_of_le_of_lt h1 (by exact_mod_cast this)
    have h3 : (2 : Int) ^ 23 * |fltSign f * (w : Int) - x| ≤ 2 ^ 23 * 2 ^ (L - 23) := by
      exact mul_le_mul_of_nonneg_left h2.le (by decide)
    rw [← pow_add, show 23 + (L - 23) = L by omega] at h3
    refine le_trans h3 ?_
    rw [Int.abs_eq_natAbs]
    exact_mod_cast hlo

/-- C94.  From half a unit above the greatest `float` on it throws. -/
theorem C94_through_float_throws (a : BigInt) (x : Int) (ha : a.Denotes x) (fa : a.Fits) (h : 2 ^ 128 - 2 ^ 103 ≤ |x|) :
    a.throughFloat = .throw .overflowError := by
  unfold BigInt.throughFloat
  rw [C49_infinity a x ha fa h, Res.ok_bind]
  cases decide (x < 0)
  · exact C94_of_float_not_finite _ (by decide) (by unfold FltFinite; decide)
  · exact C94_of_float_not_finite _ (by decide) (by unfold FltFinite; decide)

/-- C94.  The value survives exactly if it has at most 24 significant bits and is below `2^128`. -/
theorem C94_exact_iff (a : BigInt) (x : Int) (ha : a.Denotes x) (fa : a.Fits) :
    Returns a.throughFloat x ↔ (∃ (m : Int) (k : Nat), |m| < 2 ^ 24 ∧ x = m * 2 ^ k) ∧ |x| < 2 ^ 128 := by
  constructor
  · rintro ⟨c, e, hc⟩
    by_cases h : |x| < 2 ^ 128 - 2 ^ 103
    · obtain ⟨y, ⟨c', e', hc'⟩, hs, -⟩ := C94_through_float a x ha h
      obtain rfl := Res.ok.inj (e.symm.trans e')
      obtain rfl : x = y := hc.2.symm.trans hc'.2
      exact ⟨hs, lt_trans h (by decide)⟩
    · rw [C94_through_float_throws a x ha fa (not_lt.1 h)] at e
      cases e
  · rintro ⟨⟨m, k, h1, h2⟩, h3⟩
    obtain ⟨g, g1, g2, g3⟩ := float_of_short h1 h2 h3
    exact through_exact ha g1 g2 g3

/-- C94.  Minus zero becomes zero. -/
theorem C94_minus_zero : ofFloat (2 ^ 31) = .ok ⟨0, []⟩ ∧ (⟨0, []⟩ : BigInt).toFloat = .ok 0 := by
  rename_i c
  obtain ⟨d, s⟩ := c
  cases d <;> cases s <;> decide +kernel

/-! ### instances -/

/-- `-3.5f` is truncated to -3, the least denormalised float to 0. -/
example : Returns (ofFloat 0xC0600000) (-3) ∧ Returns (ofFloat 1) 0 := by
  have h1 := C94_of_float 0xC0600000 (by decide) (by unfold FltFinite; decide)
  have h2 := C94_of_float 1 (by decide) (by unfold FltFinite; decide)
  rw [show (fltScaled 0xC0600000).tdiv (2 ^ 149) = -3 by decide +kernel] at h1
  rw [show (fltScaled 1).tdiv (2 ^ 149) = 0 by decide +kernel] at h2
  exact ⟨h1, h2⟩
example : ofFloat 0xFF800000 = .throw .overflowError ∧ ofFloat 0x7F800001 = .throw .overflowError :=
  ⟨C94_of_float_not_finite _ (by decide) (by unfold FltFinite; decide), C94_of_float_not_finite _ (by decide) (by unfold FltFinite; decide)⟩
/-- The greatest float. -/
example : ∃ b, ofFloat 0x7F7FFFFF = .ok b ∧ b.Denotes (2 ^ 128 - 2 ^ 104) ∧ b.toFloat = .ok 0x7F7FFFFF :=
  C94_float_round_trip _ (by decide) (by unfold FltFinite; decide) _ (by decide +kernel) (by decide)
example : ∃ y, Returns neg3.throughFloat y ∧ 2 ^ 23 * |y - -18446744103774322693| ≤ 18446744103774322693 := by
  obtain ⟨y, h1, -, h2, -⟩ := C94_through_float neg3 _ neg3_denotes (by decide)
  exact ⟨y, h1, by simpa using h2⟩
example : ¬ Returns pos2.throughFloat 38654705667 := fun h => by
  obtain ⟨⟨m, k, h1, h2⟩, -⟩ := (C94_exact_iff pos2 _ pos2_denotes (by decide)).1 h
  rcases Nat.eq_zero_or_pos k with rfl | hk
  · rw [pow_zero, mul_one] at h2
    rw [← h2] at h1
    exact absurd h1 (by decide)
  · obtain ⟨j, rfl⟩ := Nat.exists_eq_add_of_lt hk
    rw [pow_succ, ← mul_assoc] at h2
    generalize m * 2 ^ (0 + j) = w at h2
    omega
example : Returns small.throughFloat (-42) := (C94_exact_iff small _ small_denotes (by decide)).2 ⟨⟨-21, 1, by decide, by decide⟩, by decide⟩
example (a : BigInt) (ha : a.Denotes (2 ^ 128)) (fa : a.Fits) : a.throughFloat = .throw .overflowError :=
  C94_through_float_throws a _ ha fa (by decide)

end BigIntegerCpp
