import Verif.Lemmas.GcdPrefix
/-
How many iterations the loop of the greatest common divisor takes.
-/
set_option linter.unusedSectionVars false

namespace BigIntegerCpp
variable [Cfg]

omit [Cfg] in
theorem euclidCount_product (f : Nat) : ∀ {x y : Nat}, y ≤ x → x * y < 2 ^ (f + 128) → euclidCount x y ≤ f := by
  induction f with
  | zero =>
    intro x y hle h
    rw [euclidCount, if_pos]
    by_contra hc
    have := Nat.mul_le_mul (show 2 ^ 64 ≤ x by omega) (show 2 ^ 64 ≤ y by omega)
    norm_num at this h
    omega
  | succ f ih =>
    intro x y hle h
    rw [euclidCount]
    by_cases hy : y < 2 ^ 64
    · rw [if_pos hy]; exact Nat.zero_le _
    · rw [if_neg hy]
      have hm := Nat.mod_lt x (show 0 < y by omega)
      refine Nat.succ_le_succ (ih (le_of_lt hm) ?_)
      have h1 : 2 * (x % y) ≤ x := by
        have := Nat.div_add_mod x y
        have h2 : 1 ≤ x / y := Nat.div_pos hle (by omega)
        have := Nat.mul_le_mul_left y h2
        omega
      have h2 := Nat.mul_le_mul_left y h1
      rw [show f + 1 + 128 = (f + 128) + 1 by omega, pow_succ] at h
      rw [show y * (2 * (x % y)) = 2 * (y * (x % y)) by ring, Nat.mul_comm y x] at h2
      omega

omit [Cfg] in
/-- Twice the number of bits of the smaller number, less 127. -/
theorem euclidCount_le (x : Nat) {y n : Nat} (h : y < 2 ^ n) : euclidCount x y ≤ 2 * n - 127 := by
  rw [euclidCount]
  by_cases hy : y < 2 ^ 64
  · rw [if_pos hy]; exact Nat.zero_le _
  · rw [if_neg hy]
    have hn : 64 < n := by
      by_contra hc
      exact hy (lt_of_lt_of_le h (Nat.pow_le_pow_right (by decide) (by omega)))
    have hm := Nat.mod_lt x (show 0 < y by omega)
    have := euclidCount_product (2 * n - 128) (le_of_lt hm) (by
      rw [show 2 * n - 128 + 128 = n + n by omega, pow_add]
      exact Nat.mul_lt_mul_of_lt_of_lt h (lt_trans hm h))
    omega

theorem gcdLoop_short {X Y : Nat} (hE : EuclidOnly X Y) (hle : Y ≤ X) {fuel N M : Nat} {xb yb : BitsBuffer}
    (hf : fuel ≤ euclidCount X Y) (hx : Buf N xb X) (hy : Buf M yb Y) : gcdLoop fuel xb yb = .diverge := by
  induction hE generalizing fuel N M xb yb with
  | small x y h =>
    rw [euclidCount, if_pos h] at hf
    obtain rfl := Nat.le_zero.1 hf
    rw [gcdLoop]
  | step x y h hs hrest ih =>
    cases fuel with
    | zero => rw [gcdLoop]
    | succ fuel =>
      have h2 := hy.len_gt_two.2 h
      have h0 : 0 < y := by omega
      have hmod := Nat.mod_lt x h0
      obtain ⟨b, e, k⟩ := reduceBy_spec hx hy h0
      rw [euclidCount, if_neg (by omega)] at hf
      rw [gcdLoop, if_pos (by omega), extractDigits_spec hx hy (by omega) hle, Res.ok_bind]
      dsimp only
      rw [lehmerGuess_euclid (log2_top x) hs, Res.ok_bind]
      dsimp only
      rw [if_pos (by rfl), e, Res.ok_bind]
      exact ih (le_of_lt hmod) (by omega) hy k

theorem gcd_short {a b : BigInt} {x y : Int} (ha : a.Denotes x) (hb : b.Denotes y) (hla : a.bits.length < 2147483648)
    (hlb : b.bits.length < 2147483648) (h64 : 2 ^ 64 ≤ min x.natAbs y.natAbs)
    (hE : EuclidOnly (max x.natAbs y.natAbs) (min x.natAbs y.natAbs)) {fuel : Nat}
    (hf : fuel ≤ euclidCount (max x.natAbs y.natAbs) (min x.natAbs y.natAbs)) : BigInt.gcd fuel a b = .diverge := by
  obtain ⟨N, M, lb, rb, k, b1, b2, e⟩ := gcd_big ha hb hla hlb (by omega) (by omega) fuel
  rw [e, gcdLoop_short hE (Nat.le_trans (Nat.min_le_left _ _) (Nat.le_max_left _ _)) hf b1 b2]
  rfl

end BigIntegerCpp
