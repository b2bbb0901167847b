import Verif.Lemmas.Numerics
import Verif.Lemmas.Closure
import Verif.Lemmas.Twos
import Verif.Props.Basic
/-
C92: the numeric helpers.  Taking a double apart and putting it together, leading zeros,
complementing an array, mixing hashes.
-/
namespace BigIntegerCpp
open Samples
set_option linter.unusedSectionVars false
variable [Cfg]

/-! ### Doubles -/

/-- A finite double is sign times mantissa times a power of two, exactly; the mantissa has at most
53 bits. -/
theorem C92_parts (d : Nat) (hd : d < 2 ^ 64) (hf : DblFinite d) :
    ∃ s e m, doubleParts d = (s, e, m, true) ∧ (s = 1 ∨ s = -1) ∧ (s < 0 ↔ 2 ^ 63 ≤ d) ∧ m < 2 ^ 53 ∧
      -1074 ≤ e ∧ e ≤ 971 ∧ dblValue d = (s : ℚ) * (m : ℚ) * (2 : ℚ) ^ e := by
  obtain ⟨-, -, h4, h5⟩ := dbl_split d hd
  have hf' : dblExp d ≠ 2047 := hf
  have h2 : (2 : ℚ) ≠ 0 := by norm_num
  refine ⟨_, _, _, doubleParts_spec d hd hf, ?_, ?_, ?_, ?_, ?_, ?_⟩
  · unfold dblSign; by_cases h : d < 2 ^ 63
    · exact .inl (if_pos h)
    · exact .inr (if_neg h)
  · unfold dblSign
    by_cases h : d < 2 ^ 63
    · rw [if_pos h]; exact iff_of_false (by decide) (by omega)
    · rw [if_neg h]; exact iff_of_true (by decide) (by omega)
  · by_cases h0 : dblExp d = 0
    · rw [if_pos h0]; norm_num at *; omega
    · rw [if_neg h0]; norm_num at *; omega
  · by_cases h0 : dblExp d = 0
    · rw [if_pos h0]; split <;> omega
    · rw [if_neg h0]; omega
  · by_cases h0 : dblExp d = 0
    · rw [if_pos h0]; split <;> omega
    · rw [if_neg h0]; omega
  · have hz : (2 : ℚ) ^ (-1074 : Int) = ((2 : ℚ) ^ 1074)⁻¹ := by rw [zpow_neg]; exact congrArg _ (zpow_natCast 2 1074)
    unfold dblValue dblScaled
    rw [div_eq_mul_inv, ← hz, Int.cast_mul, Int.cast_natCast]
    by_cases h0 : dblExp d = 0
    · rw [if_pos h0, if_pos h0, if_pos h0]
      by_cases h1 : dblFrac d = 0
      · rw [if_neg (not_not.2 h1), h1]; simp
      · rw [if_pos h1]
    · rw [if_neg h0, if_neg h0, if_neg h0, Nat.cast_mul, ← mul_assoc, mul_assoc _ _ ((2 : ℚ) ^ (-1074 : Int))]
      congr 1
      rw [Nat.cast_pow, Nat.cast_ofNat, ← zpow_natCast (2 : ℚ) (dblExp d - 1), ← zpow_add₀ h2]
      congr 1
      omega

/-- An infinity or a NaN is reported as not finite, with the fraction bits as mantissa and the
exponent -1. -/
theorem C92_parts_not_finite (d : Nat) (hd : d < 2 ^ 64) (hf : ¬ DblFinite d) :
    doubleParts d = (dblSign d, -1, dblFrac d, false) := by
  have h7 : dblExp d = 2047 := by unfold DblFinite at hf; omega
  have e1 : d &&& 0x000FFFFFFFFFFFFF = dblFrac d := mask_and d 52
  have e2 : (d >>> 52) &&& 0x7FF = dblExp d := by
    rw [Nat.shiftRight_eq_div_pow]; exact mask_and _ 11
  have e3 : 1 - (((d >>> 62) &&& 2 : Nat) : Int) = dblSign d := by
    have h6 : d >>> 62 = d / 2 ^ 62 := Nat.shiftRight_eq_div_pow d 62
    have h7 : d / 2 ^ 62 < 4 := by norm_num at *; omega
    have h9 : d / 2 ^ 62 < 2 ↔ d < 2 ^ 63 := by norm_num; omega
    rw [h6]
    unfold dblSign
    generalize d / 2 ^ 62 = q at *
    by_cases hd : d < 2 ^ 63
    · rw [if_pos hd]
      have : q < 2 := by omega
      interval_cases q <;> rfl
    · rw [if_neg hd]
      have : 2 ≤ q := by omega
      interval_cases q <;> rfl
  unfold doubleParts
  simp only [e1, e2, e3, h7]
  rfl

/-- Taking a finite double apart and putting it together gives the same double, bit for bit: zero
and minus zero, denormalised and normal. -/
theorem C92_round_trip (d : Nat) (hd : d < 2 ^ 64) (hf : DblFinite d) :
    doubleFromParts (doubleParts d).1 (doubleParts d).2.1 (doubleParts d).2.2.1 = .ok d := by
  obtain ⟨c1, c2, c3, c4⟩ := dbl_split d hd
  have hf' : dblExp d ≠ 2047 := hf
  have hcs : (d < 2 ^ 63 ↔ d / 2 ^ 63 = 0) := by norm_num
  have hs : (if dblSign d < 0 then (-1 : Int) else 1) = dblSign d := by
    unfold dblSign; by_cases h : d < 2 ^ 63
    · rw [if_pos h]; rfl
    · rw [if_neg h]; rfl
  rw [doubleParts_spec d hd hf]
  show doubleFromParts (dblSign d) _ _ = _
  obtain ⟨M, hM⟩ : ∃ M, M = (if dblExp d = 0 then dblFrac d else 2 ^ 52 + dblFrac d) := ⟨_, rfl⟩
  obtain ⟨e, he⟩ : ∃ e : Int, e = (if dblExp d = 0 then (if dblFrac d ≠ 0 then -1074 else 0) else (dblExp d : Int) - 1075) :=
    ⟨_, rfl⟩
  simp only [← hM, ← he]
  rcases Nat.eq_zero_or_pos M with h0 | h0
  · have h1 : dblExp d = 0 := by
      by_contra h; rw [if_neg h] at hM; norm_num at hM; omega
    have h2 : dblFrac d = 0 := by rw [if_pos h1] at hM; omega
    unfold doubleFromParts
    rw [if_pos h0, Res.ok_bind, or_sign (by norm_num)]
    congr 1
    rw [h1, h2] at c1
    unfold dblSign
    by_cases h : d < 2 ^ 63
    · rw [if_pos h]
      have := hcs.1 h
      rw [this] at c1
      simp only [Nat.add_zero]
      rw [if_neg (by decide)]; omega
    · rw [if_neg h, if_pos (by decide)]
      have : d / 2 ^ 63 = 1 := by omega
      rw [this] at c1; omega
  · have hMlt : M < 2 ^ 53 := by
      by_cases h : dblExp d = 0
      · rw [if_pos h] at hM; norm_num at *; omega
      · rw [if_neg h] at hM; norm_num at *; omega
    have hk1 := Nat.log2_self_le (n := M) (by omega)
    have hk2 := Nat.lt_log2_self (n := M)
    have hk : M.log2 < 53 := (Nat.log2_lt (by omega)).2 hMlt
    have hrange : -1074 ≤ e ∧ e ≤ 971 := by
      by_cases h : dblExp d = 0
      · rw [if_pos h] at he; split at he <;> omega
      · rw [if_neg h] at he; omega
    obtain ⟨d', h1, h2, h3, h4, h5⟩ := (doubleFromParts_all (s := dblSign d) (exp := e) hk1 hk2 (by omega) (by omega) (by omega)).2
      (by omega)
    rw [h1]
    have hT : fl M (e + 1074) = (if dblExp d = 0 then dblFrac d else (2 ^ 52 + dblFrac d) * 2 ^ (dblExp d - 1)) := by
      unfold fl
      rw [if_pos (by omega)]
      by_cases h : dblExp d = 0
      · rw [if_pos h] at hM he ⊢
        rw [if_pos (by omega)] at he
        rw [he, hM]; simp
      · rw [if_neg h] at hM he ⊢
        rw [hM, he]
        congr 2; omega
    have hkeep : keepBits 53 (fl M (e + 1074)) = fl M (e + 1074) := by
      refine Nat.le_antisymm (Nat.div_mul_le_self _ _) ?_
      unfold fl
      rw [if_pos (by omega)]
      exact le_keepBits hMlt (le_refl _)
    congr 1
    refine dblScaled_inj h2 hd ?_ ?_
    · rw [h5, hkeep, hs, hT]
      have hpos : 0 < (if dblExp d = 0 then dblFrac d else (2 ^ 52 + dblFrac d) * 2 ^ (dblExp d - 1)) := by
        by_cases h : dblExp d = 0
        · rw [if_pos h] at hM ⊢; omega
        · rw [if_neg h]; exact Nat.mul_pos (by positivity) (by positivity)
      have hs0 : dblSign d ≠ 0 := by unfold dblSign; split <;> decide
      exact mul_ne_zero hs0 (by omega)
    · rw [h5, hkeep, hs, hT]; rfl

theorem dbl_sign_bit {d : Nat} {s : Int} (h : dblSign d = if s < 0 then -1 else 1) : s < 0 ↔ 2 ^ 63 ≤ d := by
  unfold dblSign at h
  by_cases hd : d < 2 ^ 63
  · rw [if_pos hd] at h
    refine iff_of_false (fun hs => ?_) (by omega)
    rw [if_pos hs] at h; omega
  · rw [if_neg hd] at h
    refine iff_of_true ?_ (by omega)
    by_contra hs
    rw [if_neg hs] at h; omega

theorem unit_natAbs (s : Int) (n : Nat) : ((if s < 0 then -1 else 1) * (n : Int)).natAbs = n := by
  split <;> simp

theorem partsValue_lt {man k : Nat} {e : Int} {n : Nat} (h1 : 2 ^ k ≤ man) (h2 : man < 2 ^ (k + 1)) :
    (man : ℚ) * (2 : ℚ) ^ e < (2 : ℚ) ^ n ↔ e + k < n := by
  have h20 : (2 : ℚ) ≠ 0 := by norm_num
  have hk1 : (2 : ℚ) ^ ((k : Int) + e) ≤ (man : ℚ) * (2 : ℚ) ^ e := by
    rw [zpow_add₀ h20, zpow_natCast]
    exact mul_le_mul_of_nonneg_right (by exact_mod_cast h1) (by positivity)
  have hk2 : (man : ℚ) * (2 : ℚ) ^ e < (2 : ℚ) ^ (((k + 1 : Nat) : Int) + e) := by
    rw [zpow_add₀ h20, zpow_natCast]
    exact mul_lt_mul_of_pos_right (by exact_mod_cast h2) (by positivity)
  rw [← zpow_natCast (2 : ℚ) n]
  constructor
  · intro h
    have := (zpow_lt_zpow_iff_right₀ (by norm_num : (1 : ℚ) < 2)).1 (lt_of_le_of_lt hk1 h)
    omega
  · intro h
    refine lt_of_lt_of_le hk2 (zpow_le_zpow_right₀ (by norm_num) ?_)
    push_cast; omega

/-- Putting a double together from any sign, exponent and 64-bit mantissa: the result is the
double next to `man * 2^exp` on the side of zero, with the given sign, whenever `man * 2^exp` is
below `2^1024`.  The last hypothesis keeps the exponent arithmetic inside an `int`. -/
theorem C92_from_parts (s e : Int) (man : Nat) (hm : man < 2 ^ 64) (hv : (man : ℚ) * (2 : ℚ) ^ e < 2 ^ 1024)
    (he : man = 0 ∨ -2 ^ 31 + 52 ≤ e + man.log2) :
    ∃ d, doubleFromParts s e man = .ok d ∧ Truncates d ((man : ℚ) * (2 : ℚ) ^ e) ∧ (s < 0 ↔ 2 ^ 63 ≤ d) := by
  have main : ∃ d, doubleFromParts s e man = .ok d ∧ d < 2 ^ 64 ∧ DblFinite d ∧ dblSign d = (if s < 0 then -1 else 1) ∧
      dblScaled d = (if s < 0 then -1 else 1) * ((keepBits 53 (fl man (e + 1074)) : Nat) : Int) := by
    rcases Nat.eq_zero_or_pos man with rfl | h0
    · have hb := dbl_build (neg := decide (s < 0)) (E := 0) (f := 0) (by omega) (by norm_num)
      simp only [decide_eq_true_eq, Nat.zero_mul, Nat.add_zero] at hb
      refine ⟨(if s < 0 then 2 ^ 63 else 0), ?_, hb.1, ?_, hb.2.2.2, ?_⟩
      · unfold doubleFromParts
        rw [if_pos rfl, Res.ok_bind, or_sign (by norm_num), Nat.add_zero]
      · show dblExp _ ≠ 2047
        rw [hb.2.1]; omega
      · have : fl 0 (e + 1074) = 0 := by unfold fl; split <;> simp
        unfold dblScaled
        rw [hb.2.1, hb.2.2.1, hb.2.2.2, if_pos rfl, this, keepBits_of_lt (by norm_num)]
    · have hk1 := Nat.log2_self_le (n := man) (by omega)
      have hk2 := Nat.lt_log2_self (n := man)
      have hk : man.log2 < 64 := (Nat.log2_lt (by omega)).2 hm
      have hlt := (partsValue_lt hk1 hk2).1 hv
      push_cast at hlt
      have he := he.resolve_left (by omega)
      norm_num at he
      exact (doubleFromParts_all (s := s) (exp := e) hk1 hk2 hk (by omega) (by omega)).2 hlt
  obtain ⟨d, h1, h2, h3, h4, h5⟩ := main
  have habs : (dblScaled d).natAbs = keepBits 53 (fl man (e + 1074)) := by rw [h5, unit_natAbs]
  refine ⟨d, h1, ⟨h2, h3, ?_, fun c hc _ hcv => ?_⟩, dbl_sign_bit h4⟩
  · rw [abs_dblValue_le, habs]
    exact Nat.div_mul_le_self _ _
  · obtain ⟨f, x, hf, hfx⟩ := dblScaled_mag c hc
    rw [abs_dblValue_le, hfx] at hcv
    have := le_keepBits hf hcv
    rw [← hfx, ← habs] at this
    rw [abs_dblValue, abs_dblValue]
    exact div_le_div_of_nonneg_right (by exact_mod_cast this) (pow_nonneg (by norm_num) _)

/-- From `2^1024` on the result is an infinity of the given sign. -/
theorem C92_from_parts_infinity (s e : Int) (man : Nat) (hm : man < 2 ^ 64) (hv : 2 ^ 1024 ≤ (man : ℚ) * (2 : ℚ) ^ e)
    (he : e + man.log2 < 2 ^ 31 - 1023) : doubleFromParts s e man = .ok (dblInfinity (decide (s < 0))) := by
  have h0 : man ≠ 0 := by
    rintro rfl
    rw [Nat.cast_zero, zero_mul] at hv
    exact absurd hv (not_le.2 (pow_pos (by norm_num) _))
  have hk1 := Nat.log2_self_le (n := man) (by omega)
  have hk2 := Nat.lt_log2_self (n := man)
  have hk : man.log2 < 64 := (Nat.log2_lt (by omega)).2 hm
  have hge := mt (partsValue_lt (e := e) (n := 1024) hk1 hk2).2 (not_lt.2 hv)
  push_cast at hge
  norm_num at he
  exact (doubleFromParts_all (s := s) (exp := e) hk1 hk2 hk (by omega) (by omega)).1 (by omega)

/-- The behaviour is undefined (an `int` overflows) exactly for a mantissa other than zero and an
exponent this close to either end of `int`; otherwise the call returns. -/
theorem C92_undefined_iff (s e : Int) (man : Nat) (hm : man < 2 ^ 64) :
    (doubleFromParts s e man = .ub .signedOverflow ↔
      man ≠ 0 ∧ (e + man.log2 < -2 ^ 31 + 52 ∨ 2 ^ 31 - 1023 ≤ e + man.log2)) ∧
    (doubleFromParts s e man ≠ .ub .signedOverflow → ∃ d, doubleFromParts s e man = .ok d) := by
  rcases Nat.eq_zero_or_pos man with rfl | h0
  · have : doubleFromParts s e 0 = .ok (if s < 0 then 0 ||| 0x8000000000000000 else 0) := by
      unfold doubleFromParts; rw [if_pos rfl, Res.ok_bind]
    rw [this]
    exact ⟨iff_of_false (by simp) (by simp), fun _ => ⟨_, rfl⟩⟩
  have hk1 := Nat.log2_self_le (n := man) (by omega)
  have hk2 := Nat.lt_log2_self (n := man)
  have hk : man.log2 < 64 := (Nat.log2_lt (by omega)).2 hm
  by_cases hr : e + man.log2 < -2 ^ 31 + 52 ∨ 2 ^ 31 - 1023 ≤ e + man.log2
  · have hub : doubleFromParts s e man = .ub .signedOverflow := by
      unfold doubleFromParts
      rw [if_neg (by omega)]
      have hexp : e - (((cbitHighZero64 man : Nat) : Int) - 11) = e + man.log2 - 52 := by
        rw [cbitHighZero64_eq hk1 hk2 hk]; omega
      simp only [hexp]
      norm_num at hr
      unfold int
      by_cases h : -2147483648 ≤ e + man.log2 - 52 ∧ e + man.log2 - 52 < 2147483648
      · rw [if_pos h, Res.ok_bind, if_neg (by omega)]; rfl
      · rw [if_neg h]; rfl
    exact ⟨iff_of_true hub ⟨by omega, hr⟩, fun h => absurd hub h⟩
  · have hok : ∃ d, doubleFromParts s e man = .ok d := by
      norm_num at hr
      have := doubleFromParts_all (s := s) (exp := e) hk1 hk2 hk (by omega) (by omega)
      by_cases h : 1024 ≤ e + man.log2
      · exact ⟨_, this.1 h⟩
      · obtain ⟨d, hd, -⟩ := this.2 (by omega)
        exact ⟨d, hd⟩
    refine ⟨iff_of_false ?_ (fun h => hr h.2), fun _ => hok⟩
    obtain ⟨d, hd⟩ := hok
    rw [hd]; simp

/-- `Truncates` leaves no choice: two doubles of the same sign that both truncate `q` are the same
pattern. -/
theorem C92_truncates_unique (c d : Nat) (q : ℚ) (hc : Truncates c q) (hd : Truncates d q) (hs : 2 ^ 63 ≤ c ↔ 2 ^ 63 ≤ d) :
    c = d := by
  have h := le_antisymm (hd.largest c hc.pattern hc.finite hc.le) (hc.largest d hd.pattern hd.finite hd.le)
  have hp : (2 : ℚ) ^ 1074 ≠ 0 := pow_ne_zero _ (by norm_num)
  rw [abs_dblValue, abs_dblValue, div_left_inj' hp, Nat.cast_inj] at h
  obtain ⟨c1, c2, c3, c4⟩ := dbl_split c hc.pattern
  obtain ⟨d1, d2, d3, d4⟩ := dbl_split d hd.pattern
  have habs : ∀ x : Nat, (dblScaled x).natAbs = (if dblExp x = 0 then dblFrac x else (2 ^ 52 + dblFrac x) * 2 ^ (dblExp x - 1)) := by
    intro x
    have hs : (dblSign x).natAbs = 1 := by unfold dblSign; split <;> rfl
    unfold dblScaled
    rw [Int.natAbs_mul, hs, Nat.one_mul, Int.natAbs_natCast]
  rw [habs, habs] at h
  obtain ⟨k1, k2⟩ := dblMag_inj c4 d4 h
  rw [c1, d1, k1, k2]
  have hcs : (2 ^ 63 ≤ c ↔ c / 2 ^ 63 ≠ 0) := by norm_num
  have hds : (2 ^ 63 ≤ d ↔ d / 2 ^ 63 ≠ 0) := by norm_num
  have : c / 2 ^ 63 = d / 2 ^ 63 := by
    rw [hcs, hds] at hs
    omega
  rw [this]

/-! ### Leading zeros -/

/-- The number of leading zero bits, in 32 and in 64 bits. -/
theorem C92_leading_zeros (x : Nat) :
    (x < 2 ^ 32 → cbitHighZero32 x ≤ 32 ∧ (x < 2 ^ (32 - cbitHighZero32 x)) ∧
      (∀ j, j ≤ 32 → x < 2 ^ (32 - j) → j ≤ cbitHighZero32 x)) ∧
    (x < 2 ^ 64 → cbitHighZero64 x ≤ 64 ∧ (x < 2 ^ (64 - cbitHighZero64 x)) ∧
      (∀ j, j ≤ 64 → x < 2 ^ (64 - j) → j ≤ cbitHighZero64 x)) := by
  rcases Nat.eq_zero_or_pos x with rfl | h0
  · exact ⟨fun _ => ⟨by decide, by decide, fun j hj _ => hj⟩, fun _ => ⟨by decide, by decide, fun j hj _ => hj⟩⟩
  have hk1 := Nat.log2_self_le (n := x) (by omega)
  have hk2 := Nat.lt_log2_self (n := x)
  refine ⟨fun hx => ?_, fun hx => ?_⟩
  · have hk : x.log2 < 32 := (Nat.log2_lt (by omega)).2 hx
    rw [cbitHighZero32, leadingZeros_eq hk1 hk2 hk]
    refine ⟨by omega, by rw [show 32 - (31 - x.log2) = x.log2 + 1 by omega]; exact hk2, fun j hj hxj => ?_⟩
    have := (Nat.log2_lt (by omega)).2 hxj
    omega
  · have hk : x.log2 < 64 := (Nat.log2_lt (by omega)).2 hx
    rw [cbitHighZero64_eq hk1 hk2 hk]
    refine ⟨by omega, by rw [show 64 - (63 - x.log2) = x.log2 + 1 by omega]; exact hk2, fun j hj hxj => ?_⟩
    have := (Nat.log2_lt (by omega)).2 hxj
    omega

/-! ### Complementing an array -/

/-- Complementing keeps the length, gives the number that adds up with the old one to a multiple of
`2^(32 n)`, and done twice gives the array back. -/
theorem C92_complement (ws : List Nat) (hw : ∀ w ∈ ws, w < 2 ^ 32) :
    (twosComplement ws).length = ws.length ∧ (∀ w ∈ twosComplement ws, w < 2 ^ 32) ∧
    2 ^ (32 * ws.length) ∣ digitsVal (2 ^ 32) ws + digitsVal (2 ^ 32) (twosComplement ws) ∧
    twosComplement (twosComplement ws) = ws := by
  have hw' : WordsOk ws := fun w h => by have := hw w h; norm_num at this; exact this
  obtain ⟨h1, h2⟩ := twosComplement_spec hw'
  obtain ⟨h3, h4⟩ := twosComplement_spec h1
  have hlt := val_lt hw'
  have hlen := twosComplement_length ws
  refine ⟨hlen, fun w h => by have := h1 w h; norm_num; exact this, ?_, ?_⟩
  · have hB : (2 : Nat) ^ (32 * ws.length) = 𝔹 ^ ws.length := by rw [pow_mul]; norm_num
    have hd : ∀ l : List Nat, digitsVal (2 ^ 32) l = val l := fun l => by norm_num [val]
    rw [hd, hd, hB, h2]
    by_cases h : val ws = 0
    · rw [if_pos h, h]; exact Dvd.intro 0 rfl
    · rw [if_neg h, show val ws + (𝔹 ^ ws.length - val ws) = 𝔹 ^ ws.length by omega]
  · refine val_inj h3 hw' (by rw [twosComplement_length, hlen]) ?_
    rw [h4, h2, hlen]
    by_cases h : val ws = 0
    · rw [if_pos h, if_pos rfl, h]
    · rw [if_neg h, if_neg (by omega)]; omega

/-! ### Hashes -/

theorem rot_eq {u : Nat} (hu : u < 4294967296) : u32 (u <<< 7) ||| (u >>> 25) = u % 33554432 * 128 + u / 33554432 := by
  have h1 : u32 (u <<< 7) = 2 ^ 7 * (u % 33554432) := by
    unfold u32; rw [Nat.shiftLeft_eq]; omega
  rw [h1, Nat.shiftRight_eq_div_pow, ← Nat.two_pow_add_eq_or_of_lt (by norm_num; omega)]
  norm_num; omega

theorem combine_eq {a b : Int} {c d : Int} (h : BigInt.combineHash a b = BigInt.combineHash c d) :
    (u32 (u32i a <<< 7) ||| (u32i a >>> 25)) ^^^ u32i b = (u32 (u32i c <<< 7) ||| (u32i c >>> 25)) ^^^ u32i d := by
  have hlt : ∀ a b : Int, (u32 (u32i a <<< 7) ||| (u32i a >>> 25)) ^^^ u32i b < 4294967296 := by
    intro a b
    have h1 := u32i_lt a
    have h2 := u32i_lt b
    refine Nat.xor_lt_two_pow (n := 32) ?_ (by norm_num; exact h2)
    rw [rot_eq h1]; norm_num; omega
  unfold BigInt.combineHash at h
  have := congrArg u32i h
  rwa [i32_u32i _ (hlt _ _), i32_u32i _ (hlt _ _)] at this

/-- Mixing loses nothing: with one argument fixed, different values of the other give different
results. -/
theorem C92_mix_injective (a b c : Int) (ha : -2 ^ 31 ≤ a ∧ a < 2 ^ 31) (hb : -2 ^ 31 ≤ b ∧ b < 2 ^ 31) :
    (BigInt.combineHash c a = BigInt.combineHash c b → a = b) ∧ (BigInt.combineHash a c = BigInt.combineHash b c → a = b) := by
  have key : u32i a = u32i b → a = b := by
    intro h
    unfold u32i at h
    norm_num at ha hb
    omega
  refine ⟨fun h => key (Nat.xor_right_inj.1 (combine_eq h)), fun h => key ?_⟩
  have := Nat.xor_left_inj.1 (combine_eq h)
  have h1 := u32i_lt a
  have h2 := u32i_lt b
  rw [rot_eq h1, rot_eq h2] at this
  omega

/-- Two numbers of the same sign whose arrays differ in exactly one word have different hashes. -/
theorem C92_hash_one_word (s : Int) (p q : List Nat) (w v : Nat) (hw : w < 2 ^ 32) (hv : v < 2 ^ 32) (h : w ≠ v) :
    BigInt.hashCode ⟨s, p ++ w :: q⟩ ≠ BigInt.hashCode ⟨s, p ++ v :: q⟩ := by
  norm_num at hw hv
  intro he
  unfold BigInt.hashCode at he
  rw [if_neg (by simp), if_neg (by simp), List.foldr_append, List.foldr_append] at he
  have hrange : ∀ x, -2 ^ 31 ≤ i32 x ∧ i32 x < 2 ^ 31 := fun x => by
    have := BigInt.i32_range x
    unfold IntRange at this
    norm_num; omega
  have hc : ∀ x y : Int, -2 ^ 31 ≤ BigInt.combineHash x y ∧ BigInt.combineHash x y < 2 ^ 31 := fun x y => hrange _
  have hfold : ∀ (p : List Nat) (x y : Int), (-2 ^ 31 ≤ x ∧ x < 2 ^ 31) → (-2 ^ 31 ≤ y ∧ y < 2 ^ 31) →
      p.foldr (fun w h => BigInt.combineHash h (i32 w)) x = p.foldr (fun w h => BigInt.combineHash h (i32 w)) y → x = y := by
    intro p
    induction p with
    | nil => intro x y _ _ h; exact h
    | cons a p ih =>
      intro x y hx hy h
      refine ih x y hx hy ?_
      refine (C92_mix_injective _ _ (i32 a) ?_ ?_).2 h
      · cases p with
        | nil => exact hx
        | cons b p => exact hc _ _
      · cases p with
        | nil => exact hy
        | cons b p => exact hc _ _
  have := hfold p _ _ (hc _ _) (hc _ _) he
  have := (C92_mix_injective _ _ _ (hrange w) (hrange v)).1 this
  have h3 := congrArg u32i this
  rw [i32_u32i _ hw, i32_u32i _ hv] at h3
  exact h h3

/-! ### Concrete cases -/

/-- 1.5, the least positive double, minus zero, infinity. -/
example : doubleParts 0x3FF8000000000000 = (1, -52, 0x18000000000000, true) ∧ doubleParts 1 = (1, -1074, 1, true) ∧
    doubleParts 0x8000000000000000 = (-1, 0, 0, true) ∧ doubleParts 0x7FF0000000000000 = (1, -1, 0, false) := by decide
example : DblFinite 0x3FF8000000000000 ∧ DblFinite 1 ∧ ¬ DblFinite 0x7FF0000000000000 := by
  unfold DblFinite; decide
/-- `C92_round_trip` at minus zero and the least positive double. -/
example : doubleFromParts (-1) 0 0 = .ok 0x8000000000000000 ∧ doubleFromParts 1 (-1074) 1 = .ok 1 :=
  ⟨C92_round_trip 0x8000000000000000 (by norm_num) (by unfold DblFinite; decide),
   C92_round_trip 1 (by norm_num) (by unfold DblFinite; decide)⟩
/-- `C92_from_parts` on a mantissa that does not fit: `2^54 + 3` becomes `2^54`, although
`2^54 + 4` is nearer. -/
example : ∃ d, doubleFromParts 1 0 (2 ^ 54 + 3) = .ok d ∧ Truncates d ((2 ^ 54 + 3 : Nat) * (2 : ℚ) ^ (0 : Int)) ∧ ((1 : Int) < 0 ↔ 2 ^ 63 ≤ d) :=
  C92_from_parts 1 0 (2 ^ 54 + 3) (by norm_num) (by
    rw [zpow_zero, mul_one]
    calc ((2 ^ 54 + 3 : Nat) : ℚ) < 2 ^ 55 := by norm_num
      _ ≤ 2 ^ 1024 := pow_le_pow_right₀ (by norm_num) (by norm_num)) (.inr (by
    have : 0 ≤ ((2 ^ 54 + 3).log2 : Int) := Int.natCast_nonneg _
    norm_num at *))
example : doubleFromParts 1 0 (2 ^ 54 + 3) = .ok 0x4350000000000000 ∧ doubleFromParts 1 (-1075) 3 = .ok 1 ∧
    doubleFromParts (-1) 1023 2 = .ok 0xFFF0000000000000 ∧ doubleFromParts 1 (-2147483648) 1 = .ub .signedOverflow := by
  decide +kernel
example : doubleFromParts (-1) 1023 2 = .ok (dblInfinity true) :=
  C92_from_parts_infinity (-1) 1023 2 (by norm_num) (by
    rw [show (1024 : Nat) = 1 + 1023 by norm_num, pow_add]
    exact le_of_eq (by rw [show ((1023 : Int)) = ((1023 : Nat) : Int) by norm_num, zpow_natCast, pow_one]; rfl)) (by decide +kernel)
example : (1 : Nat) ≠ 0 ∧ ((-2147483648 : Int) + Nat.log2 1 < -2 ^ 31 + 52) := by decide +kernel
example : cbitHighZero32 1 = 31 ∧ cbitHighZero64 1 = 63 ∧ cbitHighZero64 (2 ^ 40) = 23 := by decide
example : twosComplement [0, 5, 7] = [0, 4294967291, 4294967288] ∧ twosComplement [0, 4294967291, 4294967288] = [0, 5, 7] := by
  decide
example : BigInt.combineHash 5 7 ≠ BigInt.combineHash 5 8 := fun h => absurd ((C92_mix_injective 7 8 5 (by norm_num) (by norm_num)).1 h) (by decide)
example : BigInt.hashCode ⟨1, [0, 3, 5]⟩ ≠ BigInt.hashCode ⟨1, [0, 4, 5]⟩ :=
  C92_hash_one_word 1 [0] [5] 3 4 (by norm_num) (by norm_num) (by decide)

/-- The theorems above used on concrete arguments. -/
example : doubleParts 0x7FF0000000000000 = (1, -1, 0, false) :=
  C92_parts_not_finite 0x7FF0000000000000 (by norm_num) (by unfold DblFinite; decide)
example : ∃ s e m, doubleParts 1 = (s, e, m, true) ∧ dblValue 1 = (s : ℚ) * (m : ℚ) * (2 : ℚ) ^ e := by
  obtain ⟨s, e, m, h, -, -, -, -, -, hv⟩ := C92_parts 1 (by norm_num) (by unfold DblFinite; decide)
  exact ⟨s, e, m, h, hv⟩
example : doubleFromParts 1 (-2147483648) 1 = .ub .signedOverflow :=
  (C92_undefined_iff 1 (-2147483648) 1 (by norm_num)).1.2 (by decide +kernel)
/-- Only one positive double truncates 3 * 2^-2. -/
example (c d : Nat) (hc : Truncates c ((3 : Nat) * (2 : ℚ) ^ (-2 : Int))) (hd : Truncates d ((3 : Nat) * (2 : ℚ) ^ (-2 : Int)))
    (h1 : c < 2 ^ 63) (h2 : d < 2 ^ 63) : c = d :=
  C92_truncates_unique c d _ hc hd (iff_of_false (by omega) (by omega))
example : ∃ d, Truncates d ((3 : Nat) * (2 : ℚ) ^ (-2 : Int)) ∧ d < 2 ^ 63 := by
  obtain ⟨d, -, h, hs⟩ := C92_from_parts 1 (-2) 3 (by norm_num) (by
    refine lt_of_lt_of_le (?_ : _ < (2 : ℚ) ^ 2) (pow_le_pow_right₀ (by norm_num) (by norm_num))
    norm_num) (.inr (by decide +kernel))
  exact ⟨d, h, by omega⟩
example : (1 : Nat) < 2 ^ (32 - cbitHighZero32 1) := ((C92_leading_zeros 1).1 (by norm_num)).2.1
example : twosComplement (twosComplement [0, 5, 7]) = [0, 5, 7] :=
  (C92_complement [0, 5, 7] (by decide)).2.2.2

end BigIntegerCpp
