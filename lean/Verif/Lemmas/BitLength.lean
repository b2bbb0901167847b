import Verif.Lemmas.Bitwise
import Mathlib.Tactic.IntervalCases
/-
Leading zeros, bit length, power-of-two test.
-/
namespace BigIntegerCpp
set_option linter.unusedSectionVars false
set_option linter.unnecessarySeqFocus false
variable [Cfg]

theorem smear_testBit (v i : Nat) : (BigInt.smear v).testBit i = true ↔ ∃ d < 32, v.testBit (i + d) = true := by
  have h1 : ∀ (v k i : Nat), (v ||| (v >>> k)).testBit i = (v.testBit i || v.testBit (i + k)) := by
    intro v k i
    rw [Nat.testBit_or, Nat.testBit_shiftRight, Nat.add_comm]
  unfold BigInt.smear
  simp only [h1, Bool.or_eq_true]
  constructor
  · intro h
    simp only [Nat.add_assoc, Nat.reduceAdd] at h
    rcases h with ((((h|h)|(h|h))|((h|h)|(h|h)))|(((h|h)|(h|h))|((h|h)|(h|h))))|((((h|h)|(h|h))|((h|h)|(h|h)))|(((h|h)|(h|h))|((h|h)|(h|h)))) <;>
      first
        | exact ⟨0, by decide, h⟩
        | exact ⟨_, by decide, h⟩
  · rintro ⟨d, hd, h⟩
    interval_cases d <;> simp only [Nat.add_assoc, Nat.reduceAdd, Nat.add_zero] at h ⊢ <;> simp [h]

theorem smear_eq {v k : Nat} (h1 : 2 ^ k ≤ v) (h2 : v < 2 ^ (k + 1)) (hk : k < 32) :
    BigInt.smear v = 2 ^ (k + 1) - 1 := by
  apply Nat.eq_of_testBit_eq
  intro i
  rw [Nat.testBit_two_pow_sub_one, Bool.eq_iff_iff, smear_testBit, decide_eq_true_eq]
  constructor
  · rintro ⟨d, -, h⟩
    by_contra hc
    rw [Nat.testBit_lt_two_pow (lt_of_lt_of_le h2 (Nat.pow_le_pow_right (by decide) (by omega)))] at h
    cases h
  · intro hi
    refine ⟨k - i, by omega, ?_⟩
    rw [show i + (k - i) = k by omega, Nat.testBit_eq_decide_div_mod_eq, decide_eq_true_eq]
    have : v / 2 ^ k = 1 := by
      rw [Nat.div_eq_iff (Nat.pow_pos (by decide))]
      rw [pow_succ] at h2
      omega
    rw [this]

theorem debruijn_table : ∀ k < 32,
    idx BigInt.debruijn32 (u32 (u32 (2 ^ (k + 1) - 1 + 1) * 0x076be629) >>> 27) = .ok (31 - k) := by decide

theorem leadingZerosCount_spec {v k : Nat} (h1 : 2 ^ k ≤ v) (h2 : v < 2 ^ (k + 1)) (hk : k < 32) :
    BigInt.leadingZerosCount v = .ok (31 - k) := by
  have h0 : v ≠ 0 := by
    have : 0 < 2 ^ k := Nat.pow_pos (by decide)
    omega
  unfold BigInt.leadingZerosCount
  rw [if_neg h0, smear_eq h1 h2 hk]
  exact debruijn_table k hk

theorem exists_log {v : Nat} (h0 : v ≠ 0) (h : v < 4294967296) : ∃ k < 32, 2 ^ k ≤ v ∧ v < 2 ^ (k + 1) := by
  refine ⟨Nat.log2 v, ?_, Nat.log2_self_le h0, Nat.lt_log2_self⟩
  rw [Nat.log2_lt h0]; simpa using h

theorem and_pred {v : Nat} (h0 : v ≠ 0) (h : v < 4294967296) : v &&& u32sub v 1 = 0 ↔ ∃ k, v = 2 ^ k := by
  rw [u32sub_of_le (by omega) h, Nat.and_sub_one_eq_zero_iff_isPowerOfTwo h0]; rfl

/-- A magnitude with top word `t` over low words `l`. -/
theorem pow_two_iff {l t : Nat} {n : Nat} (hl : l < 𝔹 ^ n) (ht : t ≠ 0) :
    (∃ k, l + 𝔹 ^ n * t = 2 ^ k) ↔ l = 0 ∧ ∃ k, t = 2 ^ k := by
  have hB : 𝔹 ^ n = 2 ^ (32 * n) := by
    rw [show (4294967296 : Nat) = 2 ^ 32 by norm_num, ← pow_mul]
  rw [hB] at hl ⊢
  clear hB
  constructor
  · rintro ⟨k, hk⟩
    have hle : 32 * n ≤ k := by
      by_contra hc
      have h1 : 2 ^ k < 2 ^ (32 * n) := Nat.pow_lt_pow_right (by decide) (by omega)
      have h2 : 2 ^ (32 * n) * 1 ≤ 2 ^ (32 * n) * t := Nat.mul_le_mul_left _ (by omega)
      omega
    obtain ⟨j, rfl⟩ : ∃ j, k = 32 * n + j := ⟨k - 32 * n, by omega⟩
    rw [pow_add] at hk
    have hpos : 0 < 2 ^ (32 * n) := Nat.pow_pos (by decide)
    generalize 2 ^ (32 * n) = P at *
    have h3 : (l + P * t) % P = (P * 2 ^ j) % P := by rw [hk]
    rw [Nat.add_mul_mod_self_left, Nat.mod_eq_of_lt hl, Nat.mul_mod_right] at h3
    subst h3
    refine ⟨rfl, j, ?_⟩
    rw [Nat.zero_add] at hk
    exact Nat.eq_of_mul_eq_mul_left hpos hk
  · rintro ⟨rfl, k, rfl⟩
    exact ⟨32 * n + k, by rw [pow_add]; ring⟩

theorem all_zero_iff {l : List Nat} : l.all (· = 0) = true ↔ val l = 0 := by
  induction l with
  | nil => simp
  | cons x xs ih => simp only [List.all_cons, Bool.and_eq_true, ih, val_cons]; simp

namespace BigInt

/-- Nonempty word lists as low words and top word. -/
theorem split_top {ws : List Nat} (hne : ws ≠ []) (hw : WordsOk ws) (ht : ws.getLast? ≠ some 0) :
    ∃ l t, ws = l ++ [t] ∧ WordsOk l ∧ t < 4294967296 ∧ t ≠ 0 := by
  rcases List.eq_nil_or_concat ws with rfl | ⟨l, t, rfl⟩
  · exact absurd rfl hne
  · rw [List.concat_eq_append] at *
    obtain ⟨h1, h2⟩ := wordsOk_append.1 hw
    exact ⟨l, t, rfl, h1, h2 t (by simp), by simpa using ht⟩

theorem isPowerOfTwo_spec {a : BigInt} {x : Int} (ha : a.Denotes x) :
    ∃ r, a.isPowerOfTwo = .ok r ∧ (r = true ↔ ∃ k : Nat, x = 2 ^ k) := by
  unfold isPowerOfTwo
  rw [ha.assertValid, Res.ok_bind]
  rcases ha.shape with ⟨rfl, h1, h2⟩ | ⟨s, xs, rfl, hs1, hne1, hw1, ht1, hv1, rfl⟩
  · simp only [List.length_nil, if_true]
    rw [int_ok (by omega) (by omega), Res.ok_bind]
    refine ⟨_, rfl, ?_⟩
    rw [decide_eq_true_eq]
    rcases lt_trichotomy x 0 with hx | rfl | hx
    · constructor
      · rintro ⟨h, -⟩
        exfalso
        have e1 : (u32i x).testBit 31 = true := by
          rw [testBit_31 (u32i_lt _), decide_eq_true_eq]; unfold u32i; omega
        have e2 : (u32i (x - 1)).testBit 31 = true := by
          rw [testBit_31 (u32i_lt _), decide_eq_true_eq]; unfold u32i; omega
        have e3 := Nat.testBit_and (u32i x) (u32i (x - 1)) 31
        rw [h, e1, e2] at e3
        simp at e3
      · rintro ⟨k, hk⟩
        have : (0 : Int) < 2 ^ k := by positivity
        omega
    · simp only [ne_eq, not_true_eq_false, and_false, false_iff]
      rintro ⟨k, hk⟩
      have : (0 : Int) < 2 ^ k := by positivity
      omega
    · obtain ⟨m, rfl⟩ := Int.eq_ofNat_of_zero_le (le_of_lt hx)
      have e1 : u32i (m : Int) = m := by unfold u32i; omega
      have e2 : u32i ((m : Int) - 1) = m - 1 := by unfold u32i; omega
      have h0 : m ≠ 0 := by omega
      rw [e1, e2, Nat.and_sub_one_eq_zero_iff_isPowerOfTwo h0]
      constructor
      · rintro ⟨⟨k, hk⟩, -⟩; exact ⟨k, by rw [hk]; push_cast; rfl⟩
      · rintro ⟨k, hk⟩; exact ⟨⟨k, by exact_mod_cast hk⟩, by omega⟩
  · simp only [List.length_eq_zero_iff, hne1, if_false]
    rcases hs1 with rfl | rfl
    · obtain ⟨l, t, rfl, hwl, htw, ht0⟩ := split_top hne1 hw1 ht1
      have hlast : (l ++ [t]).getLast?.getD 0 = t := by simp
      rw [hlast]
      simp only [ne_eq, not_true_eq_false, if_false, List.dropLast_concat, one_mul]
      have key := pow_two_iff (val_lt hwl) ht0
      have hval : val (l ++ [t]) = val l + 𝔹 ^ l.length * t := by rw [val_append, val_singleton]
      rw [← hval] at key
      have key2 : (∃ k : Nat, ((val (l ++ [t]) : Nat) : Int) = 2 ^ k) ↔ val l = 0 ∧ ∃ k, t = 2 ^ k := by
        rw [← key]
        constructor <;> rintro ⟨k, hk⟩ <;> exact ⟨k, by exact_mod_cast hk⟩
      rw [key2]
      by_cases hp : ∃ k, t = 2 ^ k
      · rw [if_neg (not_not.2 ((and_pred ht0 htw).2 hp))]
        simp only [hp, and_true]
        exact ⟨_, rfl, all_zero_iff⟩
      · rw [if_pos (mt (and_pred ht0 htw).1 hp)]
        simp only [hp, and_false]
        exact ⟨_, rfl, by simp⟩
    · refine ⟨false, by simp, ?_⟩
      simp only [Bool.false_eq_true, false_iff]
      rintro ⟨k, hk⟩
      have : (0 : Int) < 2 ^ k := by positivity
      omega

/-- The bit length of an integer: least `n` with `-2^n ≤ x < 2^n`. -/
theorem least_of_bounds {x : Int} {n : Nat} (h1 : -(2 : Int) ^ n ≤ x) (h2 : x < 2 ^ n)
    (h3 : n = 0 ∨ x < -(2 : Int) ^ (n - 1) ∨ 2 ^ (n - 1) ≤ x) :
    (-(2 : Int) ^ n ≤ x ∧ x < 2 ^ n) ∧ ∀ m : Nat, -(2 : Int) ^ m ≤ x → x < 2 ^ m → n ≤ m := by
  refine ⟨⟨h1, h2⟩, fun m g1 g2 => ?_⟩
  by_contra hc
  have : (2 : Int) ^ m ≤ 2 ^ (n - 1) := pow_le_pow_right₀ (by decide) (by omega)
  omega

theorem bitLength_spec {a : BigInt} {x : Int} (ha : a.Denotes x) (hl : a.bits.length < 2147483648) :
    ∃ n, a.bitLength = .ok n ∧ (-(2 : Int) ^ n ≤ x ∧ x < 2 ^ n) ∧
      ∀ m : Nat, -(2 : Int) ^ m ≤ x → x < 2 ^ m → n ≤ m := by
  -- the magnitude as low words and a top word
  have key : ∀ (len high : Nat) (low : List Nat), 1 ≤ len → len < 2147483648 → high < 4294967296 → WordsOk low →
      low.length = len - 1 → x.natAbs = val low + 𝔹 ^ (len - 1) * high → (high = 0 → x = 0 ∧ len = 1) →
      ∃ n, (do
        let lz ← leadingZerosCount high
        let bitLength ← long ((len : Int) * 32 - lz)
        if a.sign ≥ 0 then .ok (u64i bitLength)
        else if high &&& u32sub high 1 ≠ 0 then .ok (u64i bitLength)
        else if low.all (· = 0) then .ok (u64i (bitLength - 1))
        else .ok (u64i bitLength) : Res Nat) = .ok n ∧ (-(2 : Int) ^ n ≤ x ∧ x < 2 ^ n) ∧
      ∀ m : Nat, -(2 : Int) ^ m ≤ x → x < 2 ^ m → n ≤ m := by
    intro len high low h1 h2 h3 h4 h5 h6 h7
    have hsg := ha.sign_neg
    by_cases h0 : high = 0
    · obtain ⟨rfl, rfl⟩ := h7 h0
      subst h0
      have hs : a.sign ≥ 0 := by omega
      refine ⟨0, ?_, by norm_num, by simp⟩
      simp [leadingZerosCount, long, hs, u64i]
    · obtain ⟨k, hk, hk1, hk2⟩ := exists_log h0 h3
      rw [leadingZerosCount_spec hk1 hk2 hk, Res.ok_bind, long_ok (by omega) (by omega), Res.ok_bind]
      have hn : (len : Int) * 32 - ((31 - k : Nat) : Int) = ((32 * (len - 1) + k + 1 : Nat) : Int) := by omega
      rw [hn]
      have hB : 𝔹 ^ (len - 1) = 2 ^ (32 * (len - 1)) := by
        rw [show (4294967296 : Nat) = 2 ^ 32 by norm_num, ← pow_mul]
      have hlow := val_lt h4
      rw [h5] at hlow
      have hpw := pow_two_iff hlow h0
      rw [← h6] at hpw
      -- 2^(N-1) ≤ |x| < 2^N
      have hge : 2 ^ (32 * (len - 1) + k) ≤ x.natAbs := by
        rw [h6, pow_add, ← hB]
        have : 𝔹 ^ (len - 1) * 2 ^ k ≤ 𝔹 ^ (len - 1) * high := Nat.mul_le_mul_left _ hk1
        omega
      have hlt : x.natAbs < 2 ^ (32 * (len - 1) + k + 1) := by
        rw [h6, Nat.add_assoc, pow_add, ← hB]
        have : 𝔹 ^ (len - 1) * (high + 1) ≤ 𝔹 ^ (len - 1) * 2 ^ (k + 1) := Nat.mul_le_mul_left _ hk2
        rw [Nat.mul_add] at this
        omega
      have hu1 : u64i ((32 * (len - 1) + k + 1 : Nat) : Int) = 32 * (len - 1) + k + 1 := by unfold u64i; omega
      have hu2 : u64i (((32 * (len - 1) + k + 1 : Nat) : Int) - 1) = 32 * (len - 1) + k := by unfold u64i; omega
      rw [hu1, hu2]
      generalize 32 * (len - 1) + k = N at *
      have hge' : (2 : Int) ^ N ≤ x.natAbs := by exact_mod_cast hge
      have hlt' : (x.natAbs : Int) < 2 ^ (N + 1) := by exact_mod_cast hlt
      have hsucc : (2 : Int) ^ (N + 1) = 2 ^ N * 2 := pow_succ _ _
      have hpos : (0 : Int) < 2 ^ N := by positivity
      by_cases hx : x < 0
      · rw [if_neg (by omega)]
        -- exactly a power of two or not
        by_cases hp : x.natAbs = 2 ^ N
        · have hand : ¬ (high &&& u32sub high 1 ≠ 0) := by
            rw [not_not, and_pred h0 h3]
            exact (hpw.1 ⟨N, hp⟩).2
          rw [if_neg hand, if_pos (all_zero_iff.2 (hpw.1 ⟨N, hp⟩).1)]
          have hp' : (x.natAbs : Int) = 2 ^ N := by exact_mod_cast hp
          refine ⟨N, rfl, least_of_bounds (by omega) (by omega) ?_⟩
          rcases Nat.eq_zero_or_pos N with rfl | hN
          · exact .inl rfl
          · right; left
            have : (2 : Int) ^ N = 2 * 2 ^ (N - 1) := by rw [← pow_succ']; congr 1; omega
            have : (0 : Int) < 2 ^ (N - 1) := by positivity
            omega
        · have hnp : ¬ ∃ j, x.natAbs = 2 ^ j := by
            rintro ⟨j, hj⟩
            rw [hj] at hge hlt hp
            have a1 := (Nat.pow_le_pow_iff_right (by decide)).1 hge
            have a2 := (Nat.pow_lt_pow_iff_right (by decide)).1 hlt
            exact hp (by rw [show j = N by omega])
          have hp' : (x.natAbs : Int) ≠ 2 ^ N := by exact_mod_cast hp
          have hval : (if high &&& u32sub high 1 ≠ 0 then .ok (N + 1)
              else if (low.all (· = 0)) = true then .ok N else .ok (N + 1) : Res Nat) = .ok (N + 1) := by
            by_cases hand : high &&& u32sub high 1 ≠ 0
            · rw [if_pos hand]
            · rw [if_neg hand, if_neg]
              intro hall
              rw [not_not, and_pred h0 h3] at hand
              exact hnp (hpw.2 ⟨all_zero_iff.1 hall, hand⟩)
          rw [hval]
          refine ⟨N + 1, rfl, least_of_bounds (by omega) (by omega) ?_⟩
          right; left; rw [Nat.add_sub_cancel]; omega
      · rw [if_pos (by omega)]
        refine ⟨N + 1, rfl, least_of_bounds (by omega) (by omega) ?_⟩
        right; right; rw [Nat.add_sub_cancel]; omega
  unfold bitLength
  rw [ha.assertValid, Res.ok_bind]
  rcases ha.shape with ⟨rfl, h1, h2⟩ | ⟨s, xs, rfl, hs1, hne1, hw1, ht1, hv1, rfl⟩
  · simp only [if_true, List.dropLast_nil]
    have hk := key 1 x.natAbs [] (by omega) (by omega) (by omega) wordsOk_nil rfl (by simp) (by omega)
    by_cases hx : x < 0
    · rw [if_pos hx, int_ok (by omega) (by omega)]
      have : u32i (-x) = x.natAbs := by unfold u32i; omega
      simp only [Res.ok_bind, this]
      exact hk
    · rw [if_neg hx]
      have : u32i x = x.natAbs := by unfold u32i; omega
      simp only [Res.ok_bind, this]
      exact hk
  · simp only at hl
    simp only [hne1, if_false]
    obtain ⟨l, t, rfl, hwl, htw, ht0⟩ := split_top hne1 hw1 ht1
    have hidx : idx (l ++ [t]) ((l ++ [t]).length - 1) = .ok t := by simp [idx]
    rw [sizeInt_ok hl, Res.ok_bind, hidx]
    simp only [Res.ok_bind, List.dropLast_concat]
    exact key (l ++ [t]).length t l (by simp) hl htw hwl (by simp) (by
      rw [natAbs_unit_mul hs1, val_append, val_singleton]; simp) (fun h => absurd h ht0)

end BigInt
end BigIntegerCpp
