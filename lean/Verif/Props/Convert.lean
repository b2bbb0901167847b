import Verif.Lemmas.Double
import Verif.Lemmas.MulDiv
import Verif.Props.Samples
/-
C34–C36: conversions to and from built-in types.
-/
namespace BigIntegerCpp
open Samples
variable [Cfg]

/-! ### C34 narrowing conversions -/

/-- `operator int`.  Missing from the full claim: `INT_MIN`, which is in range but whose conversion
is undefined (`C34_int_min_is_undefined`). -/
theorem C34_to_int_partial (a : BigInt) (x : Int) (ha : a.Denotes x) (hmin : x ≠ -2 ^ 31) :
    a.toInt32 = if IntRange x then .ok x else .throw .overflowError := by
  rw [BigInt.toInt32_spec ha, if_neg (by simpa using hmin)]; rfl

theorem C34_int_min_is_undefined (a : BigInt) (ha : a.Denotes (-2 ^ 31)) : a.toInt32 = .ub .signedOverflow := by
  rw [BigInt.toInt32_spec ha, if_pos (by norm_num)]

theorem C34_to_uint (a : BigInt) (x : Int) (ha : a.Denotes x) :
    a.toUInt32 = if 0 ≤ x ∧ x < 2 ^ 32 then .ok x.toNat else .throw .overflowError := BigInt.toUInt32_spec ha

/-- `operator long`.  Missing from the full claim: `LONG_MIN`, which is in range but whose conversion
is undefined (`C34_long_min_is_undefined`). -/
theorem C34_to_long_partial (a : BigInt) (x : Int) (ha : a.Denotes x) (fa : a.Fits) (hmin : x ≠ -2 ^ 63) :
    a.toLong = if LongRange x then .ok x else .throw .overflowError := by
  rw [BigInt.toLong_spec ha (Nat.lt_succ_of_lt fa), if_neg (by simpa using hmin)]; rfl

theorem C34_long_min_is_undefined (a : BigInt) (ha : a.Denotes (-2 ^ 63)) (fa : a.Fits) :
    a.toLong = .ub .signedOverflow := by
  rw [BigInt.toLong_spec ha (Nat.lt_succ_of_lt fa), if_pos (by norm_num)]

theorem C34_to_ulong (a : BigInt) (x : Int) (ha : a.Denotes x) (fa : a.Fits) :
    a.toULong = if 0 ≤ x ∧ x < 2 ^ 64 then .ok x.toNat else .throw .overflowError :=
  BigInt.toULong_spec ha (Nat.lt_succ_of_lt fa)

example : pos2.toInt32 = .throw .overflowError ∧ pos2.toLong = .ok 38654705667 ∧ pos2.toULong = .ok 38654705667 := by
  rw [C34_to_int_partial _ _ pos2_denotes (by norm_num), C34_to_long_partial _ _ pos2_denotes pos2_fits (by norm_num),
    C34_to_ulong _ _ pos2_denotes pos2_fits]
  decide
example : BigInt.Denotes ⟨-1, [2147483648]⟩ (-2 ^ 31) ∧ BigInt.Denotes ⟨-1, [0, 2147483648]⟩ (-2 ^ 63) :=
  ⟨BigInt.denotes_big (.inr rfl) (by decide) (by decide) (by decide) (by decide) (by decide),
   BigInt.denotes_big (.inr rfl) (by decide) (by decide) (by decide) (by decide) (by decide)⟩

/-! ### C35 conversion to double -/

/-- Below `2^1024` the result is finite and its value is the integer with all but its 53 leading
bits cleared (truncation toward zero). -/
theorem C35_to_double_truncates (a : BigInt) (x : Int) (ha : a.Denotes x) (h : |x| < 2 ^ 1024) :
    ∃ d, a.toDouble = .ok d ∧ d < 2 ^ 64 ∧ DblFinite d ∧
      dblScaled d = (if x < 0 then -1 else 1) * (keepBits 53 x.natAbs * 2 ^ 1074 : Nat) := by
  have hx : x.natAbs < 2 ^ 1024 := by
    have : ((x.natAbs : Nat) : Int) < ((2 ^ 1024 : Nat) : Int) := by
      rw [Int.abs_eq_natAbs] at h; rw [Nat.cast_pow, Nat.cast_ofNat]; exact h
    exact_mod_cast this
  have hlen : a.bits.length < 2147483648 := by
    have : a.bits.length ≤ 32 := by
      apply ha.length_le
      refine lt_of_lt_of_le hx (le_of_eq ?_)
      rw [show (4294967296 : Nat) = 2 ^ 32 by norm_num, ← pow_mul]
    omega
  obtain ⟨d, h1, h2, -, h4⟩ := BigInt.toDouble_spec ha hlen
  exact ⟨d, h1, h2, h4 hx⟩

/-- From `2^1024` on the result is the infinity of the right sign. -/
theorem C35_to_double_infinity (a : BigInt) (x : Int) (ha : a.Denotes x) (fa : a.Fits) (h : 2 ^ 1024 ≤ |x|) :
    a.toDouble = .ok (dblInfinity (decide (x < 0))) := by
  have hx : 2 ^ 1024 ≤ x.natAbs := by
    have : ((2 ^ 1024 : Nat) : Int) ≤ ((x.natAbs : Nat) : Int) := by
      rw [Int.abs_eq_natAbs] at h; rw [Nat.cast_pow, Nat.cast_ofNat]; exact h
    exact_mod_cast this
  obtain ⟨d, h1, -, h3, -⟩ := BigInt.toDouble_spec ha (Nat.lt_succ_of_lt fa)
  rw [h1, h3 hx]

/-- `keepBits` in elementary terms: a number below `2^53` is kept as it is, and the error is
non-negative and less than one unit in the last of the kept places. -/
theorem C35_keepBits (m : Nat) : (m < 2 ^ 53 → keepBits 53 m = m) ∧ keepBits 53 m ≤ m ∧
    (∀ L, 53 ≤ L → 2 ^ (L - 1) ≤ m → m < 2 ^ L → m < keepBits 53 m + 2 ^ (L - 53) ∧ 2 ^ (L - 53) ∣ keepBits 53 m) := by
  refine ⟨fun h => ?_, Nat.div_mul_le_self _ _, fun L hL h1 h2 => ?_⟩
  · rcases Nat.eq_zero_or_pos m with rfl | h0
    · decide
    · have : Nat.log2 m < 53 := (Nat.log2_lt (by omega)).2 h
      rw [keepBits, show Nat.log2 m + 1 - 53 = 0 by omega, pow_zero, Nat.div_one, Nat.mul_one]
  · rw [keepBits, log2_eq (by omega) h1 h2, show L - 1 + 1 - 53 = L - 53 by omega]
    refine ⟨?_, Dvd.intro_left _ rfl⟩
    have hp : 0 < 2 ^ (L - 53) := Nat.pow_pos (by decide)
    have := Nat.div_add_mod m (2 ^ (L - 53))
    have := Nat.mod_lt m hp
    rw [Nat.mul_comm (m / _)]
    omega

example : ∃ d, neg3.toDouble = .ok d ∧ d < 2 ^ 64 ∧ DblFinite d ∧
    dblScaled d = (if (-18446744103774322693 : Int) < 0 then -1 else 1) *
      (keepBits 53 (-18446744103774322693 : Int).natAbs * 2 ^ 1074 : Nat) :=
  C35_to_double_truncates _ _ neg3_denotes (by decide +kernel)
example : BigInt.Denotes ⟨1, List.replicate 33 1⟩ (val (List.replicate 33 1) : Nat) ∧
    (2 : Int) ^ 1024 ≤ |((val (List.replicate 33 1) : Nat) : Int)| :=
  ⟨BigInt.denotes_big (.inl rfl) (by decide) (by decide) (by decide) (by decide +kernel) (by simp), by decide +kernel⟩

/-! ### C36 construction from double -/

/-- A finite double is truncated toward zero (`dblScaled` is the value times `2^1074`). -/
theorem C36_of_double (d : Nat) (hd : d < 2 ^ 64) (hf : DblFinite d) :
    Returns (ofDouble d) ((dblScaled d).tdiv (2 ^ 1074)) := ofDouble_spec hd hf

/-- Infinities and NaNs throw. -/
theorem C36_not_finite (d : Nat) (hd : d < 2 ^ 64) (hf : ¬ DblFinite d) : ofDouble d = .throw .overflowError := by
  unfold ofDouble
  rw [if_pos (mt (doubleIsFinite_iff d hd).1 hf)]

/-- An integral double (other than minus zero) survives the round trip bit for bit. -/
theorem C36_round_trip (d : Nat) (hd : d < 2 ^ 64) (hf : DblFinite d) (n : Int) (hn : dblScaled d = n * 2 ^ 1074)
    (hz : d ≠ 2 ^ 63) : ∃ b, ofDouble d = .ok b ∧ b.Denotes n ∧ b.toDouble = .ok d := by
  have hpos : (0 : Int) < 2 ^ 1074 := pow_pos (by decide) _
  obtain ⟨b, hb, hden⟩ := ofDouble_spec hd hf
  rw [hn, Int.mul_tdiv_cancel _ (ne_of_gt hpos)] at hden
  refine ⟨b, hb, hden, ?_⟩
  obtain ⟨c1, c2, c3, c4⟩ := dbl_split d hd
  have hcs : (d < 2 ^ 63 ↔ d / 2 ^ 63 = 0) := by norm_num
  have hfe : dblExp d ≠ 2047 := hf
  -- magnitudes
  have hs : dblSign d = 1 ∨ dblSign d = -1 := by unfold dblSign; split_ifs <;> simp
  have hmag : (if dblExp d = 0 then dblFrac d else (2 ^ 52 + dblFrac d) * 2 ^ (dblExp d - 1)) = n.natAbs * 2 ^ 1074 := by
    have := congrArg Int.natAbs hn
    unfold dblScaled at this
    rwa [natAbs_unit_mul hs, Int.natAbs_mul, Int.natAbs_pow] at this
  by_cases hn0 : n = 0
  · subst hn0
    rw [Int.natAbs_zero, Nat.zero_mul] at hmag
    have h0 : dblExp d = 0 ∧ dblFrac d = 0 := by
      by_cases he : dblExp d = 0
      · rw [if_pos he] at hmag; exact ⟨he, hmag⟩
      · rw [if_neg he] at hmag
        have : 0 < (2 ^ 52 + dblFrac d) * 2 ^ (dblExp d - 1) :=
          Nat.mul_pos (by norm_num) (Nat.pow_pos (by decide))
        omega
    obtain rfl := hden.unique denotes_zero
    have hd0 : d = 0 := by
      rw [h0.1, h0.2] at c1
      norm_num at *; omega
    subst hd0
    rfl
  · have hna : n.natAbs ≠ 0 := by omega
    have he : dblExp d ≠ 0 := by
      intro he
      rw [if_pos he] at hmag
      have h1 : 1 * 2 ^ 1074 ≤ n.natAbs * 2 ^ 1074 := Nat.mul_le_mul_right _ (by omega)
      have h2 : (2 : Nat) ^ 52 ≤ 2 ^ 1074 := Nat.pow_le_pow_right (by decide) (by decide)
      generalize (2 : Nat) ^ 1074 = Y at *
      omega
    rw [if_neg he] at hmag
    have hlt : n.natAbs < 2 ^ 1024 := by
      have h1 : n.natAbs * 2 ^ 1074 < 2 ^ 1024 * 2 ^ 1074 := by
        rw [← hmag, ← pow_add]
        calc (2 ^ 52 + dblFrac d) * 2 ^ (dblExp d - 1) < 2 ^ 53 * 2 ^ (dblExp d - 1) :=
              Nat.mul_lt_mul_of_pos_right (by norm_num at *; omega) (Nat.pow_pos (by decide))
          _ = 2 ^ (53 + (dblExp d - 1)) := (pow_add _ _ _).symm
          _ ≤ 2 ^ (1024 + 1074) := Nat.pow_le_pow_right (by decide) (by omega)
      exact lt_of_mul_lt_mul_right h1 (Nat.zero_le _)
    have hlt' : |n| < 2 ^ 1024 := by
      rw [Int.abs_eq_natAbs]
      have : ((n.natAbs : Nat) : Int) < ((2 ^ 1024 : Nat) : Int) := by exact_mod_cast hlt
      rwa [Nat.cast_pow, Nat.cast_ofNat] at this
    obtain ⟨d', g1, g2, g3, g4⟩ := C35_to_double_truncates b n hden hlt'
    have hkeep := keepBits_of_scaled hna (by omega) (by norm_num at *; omega) hmag
    rw [hkeep] at g4
    have heq : dblScaled d' = dblScaled d := by
      rw [g4, hn, Nat.cast_mul, Nat.cast_pow, Nat.cast_ofNat, ← mul_assoc]
      congr 1
      by_cases hneg : n < 0
      · rw [if_pos hneg]; omega
      · rw [if_neg hneg]; omega
    have hne : dblScaled d' ≠ 0 := by
      rw [heq, hn]; exact mul_ne_zero hn0 (ne_of_gt hpos)
    rw [g1, dblScaled_inj g2 hd hne heq]

/-- 1.5 has pattern 0x3FF8000000000000; -2^80 has pattern 0xC4F0000000000000. -/
example : DblFinite 0x3FF8000000000000 ∧ dblScaled 0x3FF8000000000000 = 3 * 2 ^ 1073 ∧
    DblFinite 0xC4F0000000000000 ∧ dblScaled 0xC4F0000000000000 = (-2 ^ 80) * 2 ^ 1074 ∧
    ¬ DblFinite 0x7FF8000000000000 := by
  unfold DblFinite
  decide +kernel

end BigIntegerCpp
