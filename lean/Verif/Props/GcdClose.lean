import Mathlib.Tactic.NormNum.NatFib
import Verif.Props.Gcd
import Verif.Lemmas.PowProps
/-
C20: operands a user meets, on which `greatest_common_divisor` never returns.
-/
set_option linter.unusedSectionVars false
namespace BigIntegerCpp
variable [Cfg]

omit [Cfg] in
/-- Neither within a factor of `1 + 2^-61` of each other nor of twice each other: a Lehmer step. -/
private theorem not_euclidStep {x y : Nat} (h64 : 2 ^ 64 ≤ y) (hxy : y < x) (h1 : x ≤ 2 ^ 61 * (x - y)) (h2 : x ≤ 2 ^ 61 * (2 * y - x)) : ¬ EuclidStep x y := by
  have hx0 : x ≠ 0 := by omega
  have hl : 64 ≤ Nat.log2 x := (Nat.le_log2 hx0).2 (by omega)
  obtain ⟨s, hs⟩ : ∃ s, Nat.log2 x = s + 62 := ⟨Nat.log2 x - 62, by omega⟩
  have hlo : 2 ^ (s + 62) ≤ x := by rw [← hs]; exact Nat.log2_self_le hx0
  have hd : 0 < 2 ^ s := by positivity
  rw [pow_add] at hlo
  unfold EuclidStep
  rw [hs, Nat.add_sub_cancel]
  dsimp only
  generalize 2 ^ s = δ at *
  have e1 := Nat.div_add_mod x δ
  have e2 := Nat.div_add_mod y δ
  have e3 := Nat.mod_lt x hd
  have e4 := Nat.mod_lt y hd
  have k1 : 2 * δ ≤ x - y := by omega
  have k2 : 2 * δ ≤ 2 * y - x := by omega
  generalize x / δ = u at *
  generalize y / δ = v at *
  have huv : v + 1 ≤ u := by
    by_contra hc
    have : δ * u ≤ δ * v := Nat.mul_le_mul_left δ (by omega)
    omega
  have huv2 : u < 2 * v := by
    by_contra hc
    have : δ * (2 * v) ≤ δ * u := Nat.mul_le_mul_left δ (by omega)
    rw [show δ * (2 * v) = 2 * (δ * v) by ring] at this
    omega
  have hq : u / v = 1 := Nat.div_eq_of_lt_le (by omega) (by omega)
  have hr : u % v = u - v := by rw [Nat.mod_eq_sub_mod (by omega), Nat.mod_eq_of_lt (by omega)]
  rw [hq, hr]
  omega

private theorem words_eq {a : BigInt} {x : Int} (ha : a.Denotes x) {k : Nat} (h1 : 2 ^ (32 * k) ≤ x.natAbs) (h2 : x.natAbs < 2 ^ (32 * k + 32)) (hk : 1 ≤ k) :
    a.bits.length = k + 1 := by
  have u := ha.length_le_of_lt (k := k + 1) (by rwa [show 32 * (k + 1) = 32 * k + 32 by ring])
  by_contra hc
  have hb : a.bits ≠ [] := by
    intro h
    rcases ha.shape with ⟨rfl, g1, g2⟩ | ⟨s, ms, rfl, hs, hne, -⟩
    · have : 2 ^ 32 ≤ 2 ^ (32 * k) := Nat.pow_le_pow_right (by decide) (by omega)
      omega
    · exact hne h
  have h3 := ha.lt_pow hb
  rw [show (𝔹 : Nat) = 2 ^ 32 from rfl, ← pow_mul] at h3
  have : 2 ^ (32 * a.bits.length) ≤ 2 ^ (32 * k) := Nat.pow_le_pow_right (by decide) (by omega)
  omega

/-- C20.  Two numbers of the same number of words, three or more, `|y| < |x| < 2|y|`, the quotient not within about
`2^-61` of 1 or 2: the call never returns. -/
theorem C20_close (a b : BigInt) (x y : Int) (k : Nat) (ha : a.Denotes x) (hb : b.Denotes y) (fa : a.Fits) (fb : b.Fits) (hk : 2 ≤ k)
    (hy : 2 ^ (32 * k) ≤ |y|) (hx : |x| < 2 ^ (32 * k + 32)) (h1 : |x| ≤ 2 ^ 61 * (|x| - |y|)) (h2 : |x| ≤ 2 ^ 61 * (2 * |y| - |x|))
    (fuel : Nat) (r : BigInt) : BigInt.gcd fuel a b ≠ .ok r ∧ BigInt.gcd fuel b a ≠ .ok r := by
  rw [Int.abs_eq_natAbs] at *
  rw [Int.abs_eq_natAbs] at *
  have hy' : 2 ^ (32 * k) ≤ y.natAbs := by exact_mod_cast hy
  have hx' : x.natAbs < 2 ^ (32 * k + 32) := by exact_mod_cast hx
  have h64 : 2 ^ 64 ≤ y.natAbs := le_trans (Nat.pow_le_pow_right (by decide) (by omega)) hy'
  have hlt : y.natAbs < x.natAbs := by omega
  have hE := not_euclidStep h64 hlt (by omega) (by omega)
  have la := words_eq ha (hy'.trans hlt.le) hx' (by omega)
  have lb := words_eq hb hy' (hlt.trans hx') (by omega)
  constructor
  · exact C20_never_returns a b x y ha hb fa fb (by rw [Nat.min_eq_right hlt.le]; exact h64) (by omega)
      (by rw [Nat.max_eq_left hlt.le, Nat.min_eq_right hlt.le]; exact hE) fuel r
  · exact C20_never_returns b a y x hb ha fb fa (by rw [Nat.min_eq_left hlt.le]; exact h64) (by omega)
      (by rw [Nat.max_eq_right hlt.le, Nat.min_eq_left hlt.le]; exact hE) fuel r

/-- C20.  Consecutive Fibonacci numbers of the same number of words, three or more: the call never returns. -/
theorem C20_fibonacci (a b : BigInt) (n k : Nat) (ha : a.Denotes (Nat.fib (n + 1))) (hb : b.Denotes (Nat.fib n)) (fa : a.Fits) (fb : b.Fits) (hk : 2 ≤ k)
    (hy : 2 ^ (32 * k) ≤ Nat.fib n) (hx : Nat.fib (n + 1) < 2 ^ (32 * k + 32)) (fuel : Nat) (r : BigInt) : BigInt.gcd fuel a b ≠ .ok r := by
  have h64 : 2 ^ 64 ≤ Nat.fib n := le_trans (Nat.pow_le_pow_right (by decide) (by omega)) hy
  obtain ⟨m, rfl⟩ : ∃ m, n = m + 3 := by
    refine ⟨n - 3, ?_⟩
    by_contra hc
    have : Nat.fib n ≤ Nat.fib 3 := Nat.fib_mono (by omega)
    have : Nat.fib 3 = 2 := rfl
    omega
  have f1 : Nat.fib (m + 3 + 1) = Nat.fib (m + 2) + Nat.fib (m + 3) := Nat.fib_add_two
  have f2 : Nat.fib (m + 3) = Nat.fib (m + 1) + Nat.fib (m + 2) := Nat.fib_add_two
  have f3 : Nat.fib (m + 2) = Nat.fib m + Nat.fib (m + 1) := Nat.fib_add_two
  have f4 : Nat.fib m ≤ Nat.fib (m + 1) := Nat.fib_le_fib_succ
  generalize Nat.fib (m + 3 + 1) = X at *
  generalize Nat.fib (m + 3) = Y at *
  generalize Nat.fib (m + 2) = Z at *
  generalize Nat.fib (m + 1) = V at *
  generalize Nat.fib m = U at *
  have eX : |(X : Int)| = X := abs_of_nonneg (Int.natCast_nonneg X)
  have eY : |(Y : Int)| = Y := abs_of_nonneg (Int.natCast_nonneg Y)
  refine (C20_close a b _ _ k ha hb fa fb hk ?_ ?_ ?_ ?_ fuel r).1
  · rw [eY]; exact_mod_cast hy
  · rw [eX]; exact_mod_cast hx
  · rw [eX, eY]; omega
  · rw [eX, eY]; omega

/-- Witness: Fibonacci numbers 100 and 101, of three words each. -/
example : (Nat.fib 100 = 354224848179261915075) ∧ Nat.fib 101 = 573147844013817084101 ∧ 2 ^ (32 * 2) ≤ Nat.fib 100 ∧ Nat.fib (100 + 1) < 2 ^ (32 * 2 + 32) := by
  have h : Nat.fib 100 = 354224848179261915075 ∧ Nat.fib 101 = 573147844013817084101 := by
    constructor <;> norm_num
  have := h.2
  refine ⟨h.1, h.2, ?_, ?_⟩ <;> simp only [h.1, Nat.reduceAdd, h.2] <;> norm_num

/-- `C20_fibonacci` at 100: the program does not return on them. -/
example (fuel : Nat) (r : BigInt) : BigInt.gcd fuel ⟨1, [2425370821, 302395254, 31]⟩ ⟨1, [3314859971, 870020775, 19]⟩ ≠ .ok r := by
  have h : Nat.fib 100 = 354224848179261915075 ∧ Nat.fib 101 = 573147844013817084101 := by
    constructor <;> norm_num
  refine C20_fibonacci _ _ 100 2 ?_ ?_ (by decide) (by decide) (le_refl _) (by rw [h.1]; norm_num) (by rw [h.2]; norm_num) fuel r
  · rw [h.2]; exact BigInt.denotes_big (.inl rfl) (by decide) (by decide) (by decide) (by decide) (by decide)
  · rw [h.1]; exact BigInt.denotes_big (.inl rfl) (by decide) (by decide) (by decide) (by decide) (by decide)

/-- `C20_close`: `3·2^64` and `2·2^64`, in either order and with signs. -/
example (fuel : Nat) (r : BigInt) : BigInt.gcd fuel ⟨-1, [0, 0, 3]⟩ ⟨1, [0, 0, 2]⟩ ≠ .ok r ∧ BigInt.gcd fuel ⟨1, [0, 0, 2]⟩ ⟨-1, [0, 0, 3]⟩ ≠ .ok r :=
  C20_close _ _ (-(3 * 2 ^ 64)) (2 * 2 ^ 64) 2 
    (BigInt.denotes_big (.inr rfl) (by decide) (by decide) (by decide) (by decide) (by decide))
    (BigInt.denotes_big (.inl rfl) (by decide) (by decide) (by decide) (by decide) (by decide)) (by decide) (by decide) (le_refl _)
    (by norm_num) (by norm_num) (by norm_num) (by norm_num) fuel r

end BigIntegerCpp
