import Verif.NumericsSpec
import Verif.Lemmas.Double
import Mathlib.Tactic.Linarith
import Mathlib.Algebra.Order.Field.Basic
/-
`get_double_parts` and `get_double_from_parts` on all arguments.
-/
namespace BigIntegerCpp
set_option linter.unusedSectionVars false
variable [Cfg]

/-- The integer part of `m * 2^e`. -/
def fl (m : Nat) (e : Int) : Nat := if 0 ≤ e then m * 2 ^ e.toNat else m / 2 ^ (-e).toNat

theorem fl_fl (m : Nat) (a : Int) {b : Int} (hb : b ≤ 0) : fl (fl m a) b = fl m (a + b) := by
  rcases lt_or_eq_of_le hb with hb | rfl
  · unfold fl
    rw [if_neg (show ¬ 0 ≤ b by omega)]
    by_cases ha : 0 ≤ a
    · rw [if_pos ha]
      by_cases h : 0 ≤ a + b
      · rw [if_pos h, show a.toNat = (a + b).toNat + (-b).toNat by omega, pow_add, ← mul_assoc,
          Nat.mul_div_cancel _ (Nat.pow_pos (by decide))]
      · rw [if_neg h, show (-b).toNat = (-(a + b)).toNat + a.toNat by omega, pow_add,
          Nat.mul_div_mul_right _ _ (Nat.pow_pos (by decide))]
    · rw [if_neg ha, if_neg (by omega), Nat.div_div_eq_div_mul, ← pow_add,
        show (-a).toNat + (-b).toNat = (-(a + b)).toNat by omega]
  · rw [add_zero]
    show (if (0 : Int) ≤ 0 then fl m a * 2 ^ (0 : Int).toNat else _) = _
    simp

theorem le_fl (M m : Nat) (e : Int) : M ≤ fl m e ↔ (M : ℚ) ≤ (m : ℚ) * (2 : ℚ) ^ e := by
  unfold fl
  by_cases h : 0 ≤ e
  · obtain ⟨n, rfl⟩ := Int.eq_ofNat_of_zero_le h
    rw [if_pos h, zpow_natCast, Int.toNat_natCast]
    exact_mod_cast Iff.rfl
  · obtain ⟨n, hn⟩ := Int.eq_ofNat_of_zero_le (show 0 ≤ -e by omega)
    obtain rfl : e = -(n : Int) := by omega
    rw [if_neg h, neg_neg, Int.toNat_natCast, Nat.le_div_iff_mul_le (Nat.pow_pos (by decide)), zpow_neg, zpow_natCast,
      ← div_eq_mul_inv, le_div_iff₀ (by positivity)]
    exact_mod_cast Iff.rfl

theorem pow_le_fl {m k : Nat} {e : Int} {n : Nat} (h1 : 2 ^ k ≤ m) (hn : (n : Int) = k + e) : 2 ^ n ≤ fl m e := by
  rw [le_fl]
  have : ((2 ^ n : Nat) : ℚ) = ((2 ^ k : Nat) : ℚ) * (2 : ℚ) ^ e := by
    push_cast
    rw [← zpow_natCast (2 : ℚ) n, ← zpow_natCast (2 : ℚ) k, ← zpow_add₀ (by norm_num), hn]
  rw [this]
  exact mul_le_mul_of_nonneg_right (by exact_mod_cast h1) (by positivity)

theorem fl_lt_pow {m k : Nat} {e : Int} {n : Nat} (h2 : m < 2 ^ k) (hn : (k : Int) + e ≤ n) : fl m e < 2 ^ n := by
  by_contra hc
  have hc := (le_fl _ _ _).1 (Nat.le_of_not_lt hc)
  have h3 : ((m : Nat) : ℚ) * (2 : ℚ) ^ e < ((2 ^ k : Nat) : ℚ) * (2 : ℚ) ^ e :=
    mul_lt_mul_of_pos_right (by exact_mod_cast h2) (by positivity)
  have h4 : ((2 ^ k : Nat) : ℚ) * (2 : ℚ) ^ e ≤ ((2 ^ n : Nat) : ℚ) := by
    push_cast
    rw [← zpow_natCast (2 : ℚ) n, ← zpow_natCast (2 : ℚ) k, ← zpow_add₀ (by norm_num)]
    exact zpow_le_zpow_right₀ (by norm_num) hn
  linarith

theorem or_sign {s : Int} {u : Nat} (h : u < 2 ^ 63) :
    (if s < 0 then u ||| 0x8000000000000000 else u) = (if s < 0 then 2 ^ 63 else 0) + u := by
  by_cases hs : s < 0
  · rw [if_pos hs, if_pos hs, Nat.or_comm, show (0x8000000000000000 : Nat) = 2 ^ 63 * 1 by norm_num,
      ← Nat.two_pow_add_eq_or_of_lt h, Nat.mul_one]
  · rw [if_neg hs, if_neg hs, Nat.zero_add]

theorem keepBits_of_lt {n m : Nat} (h : m < 2 ^ n) : keepBits n m = m := by
  rcases Nat.eq_zero_or_pos m with rfl | h0
  · unfold keepBits; simp
  · have : Nat.log2 m < n := (Nat.log2_lt (by omega)).2 h
    rw [keepBits, show Nat.log2 m + 1 - n = 0 by omega, pow_zero, Nat.div_one, Nat.mul_one]

/-- `get_double_from_parts` with a mantissa of `k+1` bits. -/
theorem doubleFromParts_all {s exp : Int} {man k : Nat} (h1 : 2 ^ k ≤ man) (h2 : man < 2 ^ (k + 1)) (hk : k < 64)
    (hlo : -2147483648 ≤ exp + k - 52) (hhi : exp + k + 1023 < 2147483648) :
    (1024 ≤ exp + k → doubleFromParts s exp man = .ok (dblInfinity (decide (s < 0)))) ∧
    (exp + k < 1024 → ∃ d, doubleFromParts s exp man = .ok d ∧ d < 2 ^ 64 ∧ DblFinite d ∧
      dblSign d = (if s < 0 then -1 else 1) ∧
      dblScaled d = (if s < 0 then -1 else 1) * ((keepBits 53 (fl man (exp + 1074)) : Nat) : Int)) := by
  have hman0 : man ≠ 0 := by have : 0 < 2 ^ k := Nat.pow_pos (by decide); omega
  obtain ⟨m, hm⟩ : ∃ m, m = fl man (52 - (k : Int)) := ⟨_, rfl⟩
  have hm1 : 2 ^ 52 ≤ m := by rw [hm]; exact pow_le_fl h1 (by omega)
  have hm2 : m < 2 ^ 53 := by rw [hm]; exact fl_lt_pow h2 (by push_cast; omega)
  have hnew : (if ((cbitHighZero64 man : Nat) : Int) - 11 < 0 then man >>> (-(((cbitHighZero64 man : Nat) : Int) - 11)).toNat
      else u64 (man <<< (((cbitHighZero64 man : Nat) : Int) - 11).toNat)) = m := by
    rw [cbitHighZero64_eq h1 h2 hk, show (((63 - k : Nat) : Int) - 11) = 52 - (k : Int) by omega]
    have e : m = fl man (52 - (k : Int)) := hm
    unfold fl at e
    by_cases h : (52 - (k : Int)) < 0
    · rw [if_neg (by omega)] at e
      rw [if_pos h, Nat.shiftRight_eq_div_pow, e]
    · rw [if_pos (by omega)] at e
      rw [if_neg h, Nat.shiftLeft_eq, ← e, u64_of_lt (by norm_num at hm2; omega)]
  have hexp : exp - (((cbitHighZero64 man : Nat) : Int) - 11) = exp + k - 52 := by
    rw [cbitHighZero64_eq h1 h2 hk]; omega
  have hstart : doubleFromParts s exp man = (do
      let uu ← (if exp + k + 1023 ≥ 0x7FF then .ok 0x7FF0000000000000
        else if exp + k + 1023 ≤ 0 then do
          let e ← int (exp + k + 1023 - 1)
          if e < -52 then .ok 0 else .ok (m >>> (-e).toNat)
        else .ok ((m &&& 0x000FFFFFFFFFFFFF) ||| u64 ((exp + k + 1023).toNat <<< 52)))
      .ok (if s < 0 then uu ||| 0x8000000000000000 else uu)) := by
    unfold doubleFromParts
    rw [if_neg hman0]
    simp only [hnew, hexp]
    rw [int_ok (by omega) (by omega), Res.ok_bind, show exp + k - 52 + 1075 = exp + k + 1023 by omega,
      int_ok (by omega) (by omega), Res.ok_bind]
  rw [hstart]
  refine ⟨fun h => ?_, fun h => ?_⟩
  · rw [if_pos (by omega), Res.ok_bind]
    unfold dblInfinity
    by_cases hs : s < 0 <;> simp [hs]
  rw [if_neg (by omega)]
  by_cases hd : exp + k + 1023 ≤ 0
  · -- denormalised
    have hT : fl man (exp + 1074) < 2 ^ 52 := fl_lt_pow h2 (by push_cast; omega)
    have hf : fl m (exp + k + 1022) = fl man (exp + 1074) := by
      rw [hm, fl_fl _ _ (by omega)]; congr 1; omega
    have hu : (if exp + k + 1023 - 1 < -52 then (.ok 0 : Res Nat) else .ok (m >>> (-(exp + k + 1023 - 1)).toNat)) =
        .ok (fl man (exp + 1074)) := by
      by_cases h5 : exp + k + 1023 - 1 < -52
      · rw [if_pos h5]
        have : fl man (exp + 1074) < 2 ^ 0 := fl_lt_pow h2 (by push_cast; omega)
        congr 1; omega
      · rw [if_neg h5, Nat.shiftRight_eq_div_pow, ← hf]
        unfold fl
        rw [if_neg (by omega), show exp + k + 1023 - 1 = exp + k + 1022 by omega]
    rw [if_pos hd, int_ok (by omega) (by omega), Res.ok_bind, hu, Res.ok_bind, or_sign (by norm_num at *; omega),
      keepBits_of_lt (by norm_num at *; omega)]
    have hb := dbl_build (neg := decide (s < 0)) (E := 0) (f := fl man (exp + 1074)) (by omega) hT
    simp only [decide_eq_true_eq, Nat.zero_mul, Nat.add_zero] at hb
    refine ⟨_, rfl, hb.1, ?_, hb.2.2.2, ?_⟩
    · show dblExp _ ≠ 2047
      rw [hb.2.1]; omega
    · unfold dblScaled
      rw [hb.2.1, hb.2.2.1, hb.2.2.2, if_pos rfl]
  · -- normal
    obtain ⟨E, hE⟩ := Int.eq_ofNat_of_zero_le (show 0 ≤ exp + k + 1023 by omega)
    have hE' : exp + k + 1023 = (E : Int) := hE
    have hf : m - 2 ^ 52 < 2 ^ 52 := by norm_num at *; omega
    have hb := dbl_build (neg := decide (s < 0)) (E := E) (f := m - 2 ^ 52) (by omega) hf
    simp only [decide_eq_true_eq] at hb
    have hor : (m &&& 0x000FFFFFFFFFFFFF) ||| u64 ((E : Int).toNat <<< 52) = E * 2 ^ 52 + (m - 2 ^ 52) := by
      have e1 : m &&& 0x000FFFFFFFFFFFFF = m - 2 ^ 52 := by
        rw [show (0x000FFFFFFFFFFFFF : Nat) = 2 ^ 52 - 1 by norm_num, mask_and]
        norm_num at *; omega
      rw [e1, Int.toNat_natCast, Nat.shiftLeft_eq, u64_of_lt (by norm_num; omega), Nat.or_comm,
        mul_comm, Nat.two_pow_add_eq_or_of_lt hf]
    have hlt : E * 2 ^ 52 + (m - 2 ^ 52) < 2 ^ 63 := by norm_num at *; omega
    have hT1 : 2 ^ (E + 51) ≤ fl man (exp + 1074) := pow_le_fl h1 (by push_cast; omega)
    have hT2 : fl man (exp + 1074) < 2 ^ (E + 52) := fl_lt_pow h2 (by push_cast; omega)
    have hkb : keepBits 53 (fl man (exp + 1074)) = m * 2 ^ (E - 1) := by
      rw [keepBits, log2_eq (L := E + 52) (by omega) (by rw [show E + 52 - 1 = E + 51 by omega]; exact hT1) hT2,
        show E + 52 - 1 + 1 - 53 = E - 1 by omega]
      congr 1
      have : fl (fl man (exp + 1074)) (-((E - 1 : Nat) : Int)) = m := by
        rw [fl_fl _ _ (by omega), hm]; congr 1; omega
      rw [← this]
      conv_rhs => unfold fl
      by_cases h0 : E - 1 = 0
      · rw [h0]; simp [fl]
      · rw [if_neg (show ¬ 0 ≤ -((E - 1 : Nat) : Int) by omega), neg_neg, Int.toNat_natCast]
        rfl
    rw [if_neg hd, Res.ok_bind, hE', hor, or_sign hlt, ← Nat.add_assoc]
    refine ⟨_, rfl, hb.1, ?_, hb.2.2.2, ?_⟩
    · show dblExp _ ≠ 2047
      rw [hb.2.1]; omega
    · unfold dblScaled
      rw [hb.2.1, hb.2.2.1, hb.2.2.2, if_neg (show ¬ E = 0 by omega), show 2 ^ 52 + (m - 2 ^ 52) = m by omega, hkb]

/-- Nothing representable lies between `keepBits 53 T` and `T`. -/
theorem le_keepBits {f e T : Nat} (hf : f < 2 ^ 53) (h : f * 2 ^ e ≤ T) : f * 2 ^ e ≤ keepBits 53 T := by
  rcases Nat.lt_or_ge T (2 ^ 53) with hT | hT
  · rw [keepBits_of_lt hT]; exact h
  have hT0 : T ≠ 0 := by have : 0 < 2 ^ 53 := Nat.pow_pos (by decide); omega
  have hl1 : 2 ^ T.log2 ≤ T := Nat.log2_self_le hT0
  have hl : 53 ≤ T.log2 := (Nat.le_log2 hT0).2 hT
  unfold keepBits
  generalize hq : T.log2 + 1 - 53 = q
  have hlq : T.log2 = 52 + q := by omega
  rw [hlq] at hl1
  have hp : 0 < 2 ^ q := Nat.pow_pos (by decide)
  rcases Nat.lt_or_ge e q with he | he
  · calc f * 2 ^ e ≤ 2 ^ 53 * 2 ^ e := Nat.mul_le_mul_right _ hf.le
      _ = 2 ^ (53 + e) := (pow_add _ _ _).symm
      _ ≤ 2 ^ (52 + q) := Nat.pow_le_pow_right (by decide) (by omega)
      _ = 2 ^ 52 * 2 ^ q := pow_add _ _ _
      _ ≤ T / 2 ^ q * 2 ^ q := Nat.mul_le_mul_right _ ((Nat.le_div_iff_mul_le hp).2 (by rw [← pow_add]; exact hl1))
  · have hd : f * 2 ^ e = f * 2 ^ (e - q) * 2 ^ q := by
      rw [mul_assoc, ← pow_add, show e - q + q = e by omega]
    rw [hd] at h ⊢
    exact Nat.mul_le_mul_right _ ((Nat.le_div_iff_mul_le hp).2 h)

/-- The magnitude of a finite double, in units of `2^-1074`. -/
theorem dblScaled_mag (c : Nat) (hc : c < 2 ^ 64) :
    ∃ f e, f < 2 ^ 53 ∧ (dblScaled c).natAbs = f * 2 ^ e := by
  obtain ⟨-, -, -, c4⟩ := dbl_split c hc
  have hs : (dblSign c).natAbs = 1 := by unfold dblSign; split <;> rfl
  unfold dblScaled
  rw [Int.natAbs_mul, hs, Nat.one_mul, Int.natAbs_natCast]
  by_cases h : dblExp c = 0
  · exact ⟨dblFrac c, 0, by norm_num at *; omega, by rw [if_pos h, pow_zero, Nat.mul_one]⟩
  · exact ⟨2 ^ 52 + dblFrac c, dblExp c - 1, by norm_num at *; omega, by rw [if_neg h]⟩

theorem abs_dblValue (d : Nat) : |dblValue d| = ((dblScaled d).natAbs : ℚ) / 2 ^ 1074 := by
  unfold dblValue
  rw [abs_div, abs_of_pos (show (0 : ℚ) < 2 ^ 1074 from pow_pos (by norm_num) _), ← Int.cast_abs, Int.abs_eq_natAbs,
    Int.cast_natCast]

theorem abs_dblValue_le (d m : Nat) (e : Int) :
    |dblValue d| ≤ (m : ℚ) * (2 : ℚ) ^ e ↔ (dblScaled d).natAbs ≤ fl m (e + 1074) := by
  have hp : (0 : ℚ) < 2 ^ 1074 := pow_pos (by norm_num) _
  rw [abs_dblValue, le_fl, div_le_iff₀ hp, mul_assoc, zpow_add₀ (by norm_num : (2 : ℚ) ≠ 0)]
  have : (2 : ℚ) ^ (1074 : Int) = (2 : ℚ) ^ (1074 : Nat) := zpow_natCast 2 1074
  rw [this]

end BigIntegerCpp
