import Verif.Lemmas.CostDiv
import Verif.Props.Arith
import Mathlib.Analysis.SpecialFunctions.Log.Base
import Mathlib.Analysis.SpecialFunctions.Pow.Asymptotics
import Mathlib.Data.Nat.Log
/-
C64-C66: what arithmetic costs.

`Cost.mul`, `Cost.div`, `Cost.rem`, `Cost.add` and `Cost.sub` (Model/Cost.lean) are the operators with
a count of steps (iterations of a loop, words of an array filled or copied), of the nesting of
recursive calls, and of the words of temporary arrays alive at the same time.  Each theorem first says
that the outcome is that of the operator itself.  The number of 32-bit words of a number is
`bits.length`; it is 0 for the small ones kept without an array.
-/
set_option linter.unusedSectionVars false
namespace BigIntegerCpp
variable [Cfg]
open Samples

/-! ### C64: multiplication -/

/-- Forty and forty-one words. -/
private def long40 : BigInt := ⟨1, List.replicate 40 4294967295⟩
private def long41 : BigInt := ⟨-1, List.replicate 41 4294967295⟩

/-- C64.  A product of an `n`-word and an `(n + e)`-word number, in either order, with `n ≤ 2^k`:
`O(3^k + e·2^k)` steps, nesting at most `k - 3`, `O(2^k + k·e)` words. -/
theorem C64_multiply (a b : BigInt) :
    (Cost.mul a b).res = a.mul b ∧
    ∀ k n e, 4 ≤ k → n ≤ 2 ^ k → min a.bits.length b.bits.length = n → max a.bits.length b.bits.length = n + e →
      (Cost.mul a b).steps ≤ 7 * 3 ^ k + 3 * (e * 2 ^ k) ∧ (Cost.mul a b).depth ≤ k - 3 ∧
      (Cost.mul a b).words ≤ 4 * 2 ^ k + (k - 4) * (2 * e + 8) + 5 * n + 3 * e + 1 :=
  ⟨Cost.mul_res a b, fun _ _ _ hk hn h1 h2 =>
    ⟨(Cost.mul_within a b hk hn h1 h2).1, (Cost.mul_within a b hk hn h1 h2).2, (Cost.mul_within a b hk hn h1 h2).3⟩⟩

/-- The routine splits its operands once here. -/
example : (Cost.mul long40 long41).steps = 2040 ∧ (Cost.mul long40 long41).depth = 2 ∧ (Cost.mul long40 long41).words = 288 := by
  rename_i c; obtain ⟨d, s⟩ := c
  refine ⟨?_, ?_, ?_⟩
  · cases d <;> cases s <;> decide +kernel
  · cases d <;> cases s <;> decide +kernel
  · cases d <;> cases s <;> decide +kernel
example : (Cost.mul long40 long41).steps ≤ 7 * 3 ^ 6 + 3 * (1 * 2 ^ 6) := ((C64_multiply long40 long41).2 6 40 1 (by decide) (by decide) rfl rfl).1

omit [Cfg] in
/-- The power of two that covers `n`. -/
private theorem cover {n : Nat} (hn : 9 ≤ n) : ∃ k, 4 ≤ k ∧ n ≤ 2 ^ k ∧ 2 ^ (k - 1) < n := by
  refine ⟨Nat.clog 2 n, ?_, Nat.le_pow_clog (by decide) n, Nat.pow_pred_clog_lt_self (by decide) (by omega)⟩
  exact (Nat.lt_clog_iff_pow_lt (b := 2) (by decide)).2 (lt_of_lt_of_le (by decide) hn)

omit [Cfg] in
private theorem three_pow {j n : Nat} (h : 2 ^ j ≤ n) : ((3 ^ j : Nat) : ℝ) ≤ (n : ℝ) ^ Real.logb 2 3 := by
  have h2 : ((2 : ℝ) ^ Real.logb 2 3) = 3 := Real.rpow_logb (by norm_num) (by norm_num) (by norm_num)
  have hp : 0 ≤ Real.logb 2 3 := Real.logb_nonneg (by norm_num) (by norm_num)
  have e : ((3 ^ j : Nat) : ℝ) = ((2 ^ j : Nat) : ℝ) ^ Real.logb 2 3 := by
    push_cast
    rw [← Real.rpow_natCast 2 j, ← Real.rpow_mul (by norm_num), mul_comm, Real.rpow_mul (by norm_num), h2, Real.rpow_natCast]
  rw [e]
  exact Real.rpow_le_rpow (Nat.cast_nonneg _) (by exact_mod_cast h) hp

/-- C64.  Numbers of `n` and `n + e` words: at most `21·n^(log₂ 3) + 6·e·n` steps. -/
theorem C64_steps {a b : BigInt} {n e : Nat} (hn : 9 ≤ n) (h1 : min a.bits.length b.bits.length = n) (h2 : max a.bits.length b.bits.length = n + e) :
    (Cost.mul a b).res = a.mul b ∧ ((Cost.mul a b).steps : ℝ) ≤ 21 * (n : ℝ) ^ Real.logb 2 3 + 6 * (e * n) := by
  obtain ⟨k, hk, hle, hlt⟩ := cover hn
  refine ⟨Cost.mul_res a b, ?_⟩
  have hs := (Cost.mul_within a b hk hle h1 h2).1
  obtain ⟨j, rfl⟩ : ∃ j, k = j + 1 := ⟨k - 1, by omega⟩
  rw [Nat.add_sub_cancel] at hlt
  have h3 := three_pow hlt.le
  have hs' : (Cost.mul a b).steps ≤ 21 * 3 ^ j + 6 * (e * n) := by
    refine hs.trans ?_
    have : e * 2 ^ (j + 1) ≤ e * (2 * n) := Nat.mul_le_mul_left _ (by rw [pow_succ]; omega)
    rw [show e * (2 * n) = 2 * (e * n) by ring] at this
    rw [pow_succ 3]
    omega
  have hs'' : ((Cost.mul a b).steps : ℝ) ≤ ((21 * 3 ^ j + 6 * (e * n) : Nat) : ℝ) := by exact_mod_cast hs'
  push_cast at hs'' h3
  linarith

example : ((Cost.mul long40 long41).steps : ℝ) ≤ 21 * ((40 : Nat) : ℝ) ^ Real.logb 2 3 + 6 * ((1 : Nat) * (40 : Nat)) :=
  (C64_steps (by decide) rfl rfl).2

/-- C64.  Numbers of at most 16 words, or one of them so short: the school method, at most
`567 + 48·e` steps. -/
theorem C64_short {a b : BigInt} {n e : Nat} (hn : n ≤ 16) (h1 : min a.bits.length b.bits.length = n) (h2 : max a.bits.length b.bits.length = n + e) :
    (Cost.mul a b).res = a.mul b ∧ (Cost.mul a b).steps ≤ 567 + 48 * e ∧ (Cost.mul a b).depth ≤ 1 := by
  have h := Cost.mul_within a b (k := 4) (le_refl 4) hn h1 h2
  exact ⟨Cost.mul_res a b, h.1.trans (by norm_num; omega), h.2⟩

example : (Cost.mul neg3 pos2).steps ≤ 567 + 48 * 1 := (C64_short (n := 2) (by decide) rfl rfl).2.1

/-- C64.  Beyond every constant factor faster than quadratic, for numbers of the same size. -/
theorem C64_subquadratic (c : ℝ) (hc : 0 < c) :
    ∃ N : Nat, ∀ (a b : BigInt) (n : Nat), N ≤ n → a.bits.length = n → b.bits.length = n →
      (Cost.mul a b).res = a.mul b ∧ ((Cost.mul a b).steps : ℝ) ≤ c * n ^ 2 := by
  have hlt : Real.logb 2 3 < 2 := by
    rw [Real.logb_lt_iff_lt_rpow (by norm_num) (by norm_num)]
    norm_num
  have ht := tendsto_rpow_atTop (y := 2 - Real.logb 2 3) (by linarith)
  obtain ⟨M, hM⟩ := (Filter.tendsto_atTop.1 ht (21 / c)).exists_forall_of_atTop
  refine ⟨max 9 (Nat.ceil M), fun a b n hn ha hb => ?_⟩
  have h9 : 9 ≤ n := le_trans (le_max_left _ _) hn
  have hMn : M ≤ n := le_trans (Nat.le_ceil M) (by exact_mod_cast le_trans (le_max_right _ _) hn)
  have hs := C64_steps (a := a) (b := b) (e := 0) h9 (by rw [ha, hb, min_self]) (by rw [ha, hb, max_self]; rfl)
  refine ⟨hs.1, hs.2.trans ?_⟩
  have hn0 : (0 : ℝ) < n := by exact_mod_cast lt_of_lt_of_le (by decide) h9
  have h21 := hM n hMn
  have e2 : (n : ℝ) ^ 2 = (n : ℝ) ^ Real.logb 2 3 * (n : ℝ) ^ (2 - Real.logb 2 3) := by
    rw [← Real.rpow_add hn0, ← Real.rpow_natCast]
    norm_num
  rw [e2]
  have hp : 0 < (n : ℝ) ^ Real.logb 2 3 := Real.rpow_pos_of_pos hn0 _
  have h21' : 21 ≤ c * (n : ℝ) ^ (2 - Real.logb 2 3) := by
    rw [div_le_iff₀ hc] at h21
    linarith
  push_cast
  nlinarith

example : ∃ N : Nat, ∀ (a b : BigInt) (n : Nat), N ≤ n → a.bits.length = n → b.bits.length = n →
    (Cost.mul a b).res = a.mul b ∧ ((Cost.mul a b).steps : ℝ) ≤ 1 / 1000 * n ^ 2 := C64_subquadratic (1 / 1000) (by norm_num)

/-- C64.  Numbers of the same size `n ≥ 9`: at most `14·n` words of temporary storage; the nesting of
calls is at most the logarithm of the size. -/
theorem C64_storage {a b : BigInt} {n : Nat} (hn : 9 ≤ n) (ha : a.bits.length = n) (hb : b.bits.length = n) :
    (Cost.mul a b).res = a.mul b ∧ (Cost.mul a b).words ≤ 14 * n ∧ 2 ^ (Cost.mul a b).depth < n := by
  obtain ⟨k, hk, hle, hlt⟩ := cover hn
  have h := Cost.mul_within a b (e := 0) hk hle (by rw [ha, hb, min_self]) (by rw [ha, hb, max_self]; rfl)
  obtain ⟨j, rfl⟩ : ∃ j, k = j + 4 := ⟨k - 4, by omega⟩
  have e1 : 2 ^ (j + 4 - 1) = 8 * 2 ^ j := by rw [show j + 4 - 1 = j + 3 by omega, pow_add]; ring
  have e2 : 2 ^ (j + 4) = 16 * 2 ^ j := by rw [pow_add]; ring
  have e3 : j < 2 ^ j := Nat.lt_two_pow_self
  rw [e1] at hlt
  refine ⟨Cost.mul_res a b, h.3.trans ?_, ?_⟩
  · rw [e2]; omega
  · refine lt_of_le_of_lt (Nat.pow_le_pow_right (by decide) h.2) ?_
    rw [show j + 4 - 3 = j + 1 by omega, pow_succ]
    omega

example : (Cost.mul long40 long40).words ≤ 560 := (C64_storage (n := 40) (by decide) rfl rfl).2.1

/-- C64.  The nesting of calls never exceeds 28: no operands, however large, exhaust the stack. -/
theorem C64_depth {a b : BigInt} (ha : a.bits.length < 2147483648) : (Cost.mul a b).res = a.mul b ∧ (Cost.mul a b).depth ≤ 28 := by
  refine ⟨Cost.mul_res a b, ?_⟩
  have h := Cost.mul_within a b (k := 31) (e := max a.bits.length b.bits.length - min a.bits.length b.bits.length) (by decide)
    (le_trans (min_le_left _ _) (by rw [show (2 : Nat) ^ 31 = 2147483648 from rfl]; omega)) rfl (by omega)
  exact h.2

example : (Cost.mul long41 long40).depth ≤ 28 := (C64_depth (by decide)).2

/-! ### C65: division -/

/-- C65.  A quotient of an `m`-word by an `n`-word number: at most `(m - n + 1)·(2n + 8) + 3m` steps and
`4m + 2` words, no recursion.  (`m - n` is 0 when the divisor is longer.) -/
theorem C65_divide {a b : BigInt} (ha : a.Valid) (hb : b.Valid) :
    (Cost.div a b).res = a.div b ∧
    (Cost.div a b).steps ≤ (a.bits.length - b.bits.length + 1) * (2 * b.bits.length + 8) + 3 * a.bits.length ∧
    (Cost.div a b).depth = 0 ∧ (Cost.div a b).words ≤ 4 * a.bits.length + 2 :=
  have h := Cost.div_within ha.words hb.words
  ⟨Cost.div_res a b, h.1, Nat.le_zero.1 h.2, h.3⟩

example : (Cost.div neg3 pos2).res = neg3.div pos2 ∧ (Cost.div neg3 pos2).steps ≤ 33 :=
  ⟨(C65_divide neg3_denotes.1 pos2_denotes.1).1, (C65_divide neg3_denotes.1 pos2_denotes.1).2.1⟩
/-- This division has quotient digits that are corrected. -/
example : (Cost.div ⟨1, [0, 2147483648, 2147483647]⟩ ⟨1, [4294967295, 2147483648]⟩).steps = 24 := by
  rename_i c; obtain ⟨d, s⟩ := c; cases d <;> cases s <;> decide +kernel

/-- C65.  A remainder likewise. -/
theorem C65_remainder {a b : BigInt} (ha : a.Valid) (hb : b.Valid) :
    (Cost.rem a b).res = a.rem b ∧
    (Cost.rem a b).steps ≤ (a.bits.length - b.bits.length + 1) * (2 * b.bits.length + 4) + 4 * a.bits.length + b.bits.length ∧
    (Cost.rem a b).depth = 0 ∧ (Cost.rem a b).words ≤ 2 * a.bits.length + b.bits.length :=
  have h := Cost.rem_within ha.words hb.words
  ⟨Cost.rem_res a b, h.1, Nat.le_zero.1 h.2, h.3⟩

example : (Cost.rem neg3 pos2).res = neg3.rem pos2 ∧ (Cost.rem neg3 pos2).steps ≤ 30 :=
  ⟨(C65_remainder neg3_denotes.1 pos2_denotes.1).1, (C65_remainder neg3_denotes.1 pos2_denotes.1).2.1⟩

/-- C65.  In a division of words, one quotient digit is tested at most three times. -/
theorem C65_guess {l r : List Nat} {shift hi lo n : Nat} (hl : WordsOk l) (h1 : 2 ^ 31 ≤ hi) (h2 : hi < 2 ^ 32) (h3 : lo < 2 ^ 32) :
    (Cost.divideGuess l r shift hi lo n).res = divideGuess l r shift hi lo n ∧ (Cost.divideGuess l r shift hi lo n).steps ≤ 3 :=
  ⟨Cost.divideGuess_res l r shift hi lo n, (Cost.divideGuess_within 0 0 hl h1 h2 h3).1⟩

/-- Three tests do occur: the first guess is two too large. -/
example : (Cost.divideGuess [0, 2147483648, 2147483647] [4294967295, 2147483648] 0 2147483648 4294967295 0).steps = 3 ∧
    (Cost.divideGuess [0, 2147483648, 2147483647] [4294967295, 2147483648] 0 2147483648 4294967295 0).steps ≤ 3 :=
  ⟨by rename_i c; obtain ⟨d, s⟩ := c; cases d <;> cases s <;> decide +kernel, (C65_guess (by decide) (by decide) (by decide) (by decide)).2⟩

/-! ### C66: addition and subtraction -/

/-- C66.  Sums and differences of numbers with at most `m` words: linear. -/
theorem C66_linear {a b : BigInt} {m : Nat} (ha : a.bits.length ≤ m) (hb : b.bits.length ≤ m) :
    ((Cost.add a b).res = a.add b ∧ (Cost.add a b).steps ≤ 8 * m + 4 ∧ (Cost.add a b).depth = 0 ∧ (Cost.add a b).words ≤ 2 * m + 2) ∧
    ((Cost.sub a b).res = a.sub b ∧ (Cost.sub a b).steps ≤ 9 * m + 4 ∧ (Cost.sub a b).depth = 0 ∧ (Cost.sub a b).words ≤ 3 * m + 2) :=
  have h1 := Cost.add_within a b ha hb
  have h2 := Cost.sub_within a b ha hb
  ⟨⟨Cost.add_res a b, h1.1, Nat.le_zero.1 h1.2, h1.3⟩, Cost.sub_res a b, h2.1, Nat.le_zero.1 h2.2, h2.3⟩

example : (Cost.add neg3 pos2).steps ≤ 28 ∧ (Cost.sub neg3 pos2).steps ≤ 31 :=
  ⟨(C66_linear (m := 3) (by decide) (by decide)).1.2.1, (C66_linear (m := 3) (by decide) (by decide)).2.2.1⟩

end BigIntegerCpp
