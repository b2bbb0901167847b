import Verif.Lemmas.PowProps
import Verif.Props.Samples
/-
C15–C18: integer powers and modular powers.
-/
namespace BigIntegerCpp
open Samples
variable [Cfg]

/-! ### C15 pow -/

/-- `pow` is exact whenever the word counter `1 + n * words(a)` stays below `INT_MAX`, and in
the trivial cases `n ≤ 1`, `|a| ≤ 1` without any condition. -/
theorem C15_pow (a : BigInt) (x : Int) (n : Nat) (ha : a.Denotes x) (fa : a.Fits) (hn : IntRange n)
    (hsize : n ≤ 1 ∨ |x| ≤ 1 ∨ 1 + n * max 1 a.bits.length < 2 ^ 31 - 1) : Returns (a.pow n) (x ^ n) := by
  have h := BigInt.pow_spec ha (Nat.lt_succ_of_lt fa) (n := n) (by have := hn.2; omega)
  rwa [if_pos] at h
  rcases hsize with h | h | h
  · exact .inl (.inl h)
  · rw [abs_le] at h; exact .inl (.inr (by omega))
  · exact .inr h

/-- A result too long to index is refused, not mangled. -/
theorem C15_overflow (a : BigInt) (x : Int) (n : Nat) (ha : a.Denotes x) (fa : a.Fits) (hn : IntRange n)
    (h1 : 2 ≤ n) (h2 : 2 ≤ |x|) (hsize : 2 ^ 31 - 1 ≤ 1 + n * max 1 a.bits.length) :
    a.pow n = .throw .overflowError := by
  have h := BigInt.pow_spec ha (Nat.lt_succ_of_lt fa) (n := n) (by have := hn.2; omega)
  rwa [if_neg] at h
  rw [le_abs] at h2
  rintro ((h | h) | h) <;> omega

/-- Whatever the value and the exponent: the exact power, `out_of_range` for a negative exponent
or `overflow_error`; nothing else. -/
theorem C15_total (a : BigInt) (x : Int) (n : Int) (ha : a.Denotes x) (fa : a.Fits) (hn : IntRange n) :
    (n < 0 ∧ a.pow n = .throw .outOfRange) ∨ (0 ≤ n ∧ Returns (a.pow n) (x ^ n.toNat)) ∨
      (2 ≤ n ∧ a.pow n = .throw .overflowError) := by
  rcases lt_or_ge n 0 with h | h
  · exact .inl ⟨h, by unfold BigInt.pow; rw [if_pos h]⟩
  · right
    obtain ⟨k, rfl⟩ := Int.eq_ofNat_of_zero_le h
    by_cases hs : k ≤ 1 ∨ |x| ≤ 1 ∨ 1 + k * max 1 a.bits.length < 2 ^ 31 - 1
    · exact .inl ⟨h, by simpa using C15_pow a x k ha fa hn hs⟩
    · right
      push Not at hs
      exact ⟨by omega, C15_overflow a x k ha fa hn (by omega) (by omega) (by omega)⟩

theorem C15_negative_exponent (a : BigInt) (n : Int) (h : n < 0) : a.pow n = .throw .outOfRange := by
  unfold BigInt.pow; rw [if_pos h]

example : Returns (neg3.pow 200) ((-18446744103774322693) ^ 200) :=
  C15_pow _ _ 200 neg3_denotes neg3_fits (by decide) (.inr (.inr (by decide)))
example : neg3.pow 800000000 = .throw .overflowError :=
  C15_overflow _ _ 800000000 neg3_denotes neg3_fits (by decide) (by decide) (by decide) (by decide)

/-! ### C16 mod_pow below the threshold of the Barrett reducer -/

/-- `mod_pow` for every modulus below `2^992`, with the one family of wrong answers made explicit:
a modulus in the `int` range and a negative remainder. -/
theorem C16_below_992_bits (a e m : BigInt) (x z : Int) (n : Nat) (ha : a.Denotes x) (he : e.Denotes n) (hm : m.Denotes z)
    (fa : a.Fits) (hz : z ≠ 0) (hz2 : |z| < 2 ^ 992) :
    Returns (a.modPow e m) (if |z| < 2 ^ 31 ∧ (x ^ n).tmod z < 0 then (x ^ n).tmod z + 2 ^ 32 else (x ^ n).tmod z) := by
  by_cases hb : m.bits = []
  · have := BigInt.modPow_small ha he hm hz hb (Nat.lt_succ_of_lt fa)
    have h31 := hm.bits_nil.1 hb
    simp only [h31, true_and]
    exact this
  · have h31 : ¬ |z| < 2 ^ 31 := fun h => hb (hm.bits_nil.2 h)
    rw [if_neg fun h => h31 h.1]
    have : m.bits.length ≤ 31 := hm.length_le_of_lt (by
      rw [abs_lt] at hz2
      generalize he992 : (2 : Int) ^ 992 = Q at hz2
      have : ((2 ^ (32 * 31) : Nat) : Int) = Q := by rw [← he992]; norm_num
      omega)
    exact BigInt.modPow_mid ha he hm hb (by omega) (Nat.lt_succ_of_lt fa)

/-- The part of C16 that holds: modulus below `2^992`, and not (modulus in the `int` range and
negative remainder).  Missing: those negative remainders (`C16_wrong_sign`) and moduli of 32 words
or more (C18). -/
theorem C16_mod_pow_partial (a e m : BigInt) (x z : Int) (n : Nat) (ha : a.Denotes x) (he : e.Denotes n) (hm : m.Denotes z)
    (fa : a.Fits) (hz : z ≠ 0) (hz2 : |z| < 2 ^ 992) (hdom : ¬ (|z| < 2 ^ 31 ∧ (x ^ n).tmod z < 0)) :
    Returns (a.modPow e m) ((x ^ n).tmod z) := by
  have := C16_below_992_bits a e m x z n ha he hm fa hz hz2
  rwa [if_neg hdom] at this

/-- For a non-negative value there is no exception below `2^992`. -/
theorem C16_nonneg (a e m : BigInt) (x z : Int) (n : Nat) (ha : a.Denotes x) (he : e.Denotes n) (hm : m.Denotes z)
    (fa : a.Fits) (hz : z ≠ 0) (hz2 : |z| < 2 ^ 992) (hx : 0 ≤ x) : Returns (a.modPow e m) (x ^ n % |z|) := by
  have h0 : 0 ≤ x ^ n := pow_nonneg hx n
  have h := C16_mod_pow_partial a e m x z n ha he hm fa hz hz2 (fun h => by
    have := Int.tmod_nonneg z h0
    omega)
  rwa [Int.tmod_eq_emod_of_nonneg h0, ← Int.emod_abs] at h

/-- Every negative remainder by an `int`-sized modulus is returned with `2^32` added. -/
theorem C16_wrong_sign (a e m : BigInt) (x z : Int) (n : Nat) (ha : a.Denotes x) (he : e.Denotes n) (hm : m.Denotes z)
    (fa : a.Fits) (hz : z ≠ 0) (hz2 : |z| < 2 ^ 31) (hneg : (x ^ n).tmod z < 0) :
    Returns (a.modPow e m) ((x ^ n).tmod z + 2 ^ 32) := by
  have := C16_below_992_bits a e m x z n ha he hm fa hz (lt_trans hz2 (pow_lt_pow_right₀ (by decide) (by decide)))
  rwa [if_pos ⟨hz2, hneg⟩] at this

/-- `mod_pow(-3, 3, 10)` is not `-7`. -/
theorem C16_refuted : ¬ ∀ (a e m : BigInt) (x z : Int) (n : Nat), a.Denotes x → e.Denotes n → m.Denotes z → a.Fits →
    z ≠ 0 → Returns (a.modPow e m) ((x ^ n).tmod z) := by
  intro h
  have h3 : BigInt.Denotes ⟨-3, []⟩ (-3) := BigInt.denotes_small (by decide) (by decide)
  have he : BigInt.Denotes ⟨3, []⟩ (3 : Nat) := BigInt.denotes_small (by decide) (by decide)
  have hm : BigInt.Denotes ⟨10, []⟩ 10 := BigInt.denotes_small (by decide) (by decide)
  obtain ⟨b, h1, h2⟩ := h _ _ _ _ _ 3 h3 he hm (by decide) (by decide)
  obtain ⟨c, k1, k2⟩ := C16_wrong_sign _ _ _ _ _ 3 h3 he hm (by decide) (by decide) (by decide) (by decide)
  obtain rfl : b = c := by rw [h1] at k1; exact Res.ok.inj k1
  exact absurd (h2.2.symm.trans k2.2) (by decide)

example : Returns (neg3.modPow pos2 neg3) (((-18446744103774322693) ^ 38654705667).tmod (-18446744103774322693)) :=
  C16_mod_pow_partial _ _ _ _ _ 38654705667 neg3_denotes pos2_denotes neg3_denotes neg3_fits (by decide)
    (by decide +kernel) (fun h => absurd h.1 (by decide))

/-! ### C17 bad arguments of mod_pow -/

theorem C17_negative_exponent (a e m : BigInt) (y : Int) (he : e.Denotes y) (hy : y < 0) :
    a.modPow e m = .throw .outOfRange := BigInt.modPow_negative he hy

/-- Zero modulus: `DivideByZero`, unless the value is in the `int` range and the exponent is
`2^32` or more.  Missing: that case, in which the program divides by zero (`C17_unchecked`). -/
theorem C17_zero_modulus_partial (a e m : BigInt) (x : Int) (n : Nat) (ha : a.Denotes x) (he : e.Denotes n)
    (hm : m.Denotes 0) (fa : a.Fits) (hdom : 2 ^ 31 ≤ |x| ∨ n < 2 ^ 32) : a.modPow e m = .throw .divideByZero := by
  rw [BigInt.modPow_zero ha he hm (Nat.lt_succ_of_lt fa), if_neg]
  rintro ⟨h1, h2⟩
  rcases hdom with h | h
  · have := ha.bits_nil.1 h1
    omega
  · have := he.length_le_of_lt (k := 1) (by simpa using h)
    omega

theorem C17_unchecked (a e m : BigInt) (x : Int) (n : Nat) (ha : a.Denotes x) (he : e.Denotes n)
    (hm : m.Denotes 0) (fa : a.Fits) (h1 : |x| < 2 ^ 31) (h2 : 2 ^ 32 ≤ n) : a.modPow e m = .ub .divByZero := by
  rw [BigInt.modPow_zero ha he hm (Nat.lt_succ_of_lt fa), if_pos]
  exact ⟨ha.bits_nil.2 h1, he.lt_length (by simpa using h2) (le_refl _)⟩

theorem C17_refuted : ∃ a e m : BigInt, ∃ n : Nat, a.Denotes (-42) ∧ e.Denotes n ∧ m.Denotes 0 ∧
    a.modPow e m = .ub .divByZero :=
  ⟨small, pos2, zeroInt, 38654705667, small_denotes, pos2_denotes, denotes_zero,
    C17_unchecked _ _ _ _ 38654705667 small_denotes pos2_denotes denotes_zero small_fits (by decide) (by decide)⟩

example : neg3.modPow small pos2 = .throw .outOfRange := C17_negative_exponent _ _ _ _ small_denotes (by decide)
example : neg3.modPow pos2 zeroInt = .throw .divideByZero :=
  C17_zero_modulus_partial _ _ _ _ 38654705667 neg3_denotes pos2_denotes denotes_zero neg3_fits (.inl (by decide))

/-! ### C18 mod_pow with moduli of 32 words or more

The reducer returns the length of the reduced number but leaves the words alone, so the result is
right only while nothing has to be reduced. -/

theorem len32 {m : BigInt} {z : Int} (hm : m.Denotes z) (hz : 2 ^ 992 ≤ |z|) : 32 ≤ m.bits.length :=
  hm.lt_length (k := 31) (by
    rw [le_abs] at hz
    generalize he992 : (2 : Int) ^ 992 = Q at hz
    have : ((2 ^ (32 * 31) : Nat) : Int) = Q := by rw [← he992]; norm_num
    omega) (by decide)

/-- The part of C18 that holds: the base, after the one proper division done for a base longer
than the modulus, has an `n`-th power below the modulus (with `n` in the `int` range), or is 0 or
1.  Missing: all other cases; see `C18_unreduced`, `C18_square` and `C18_overrun`. -/
theorem C18_mod_pow_partial (a e m : BigInt) (x z : Int) (n : Nat) (ha : a.Denotes x) (he : e.Denotes n) (hm : m.Denotes z)
    (fa : a.Fits) (hz : 2 ^ 992 ≤ |z|) (fm : m.bits.length < 2 ^ 30 - 1)
    (hx : |x| < |z| ∨ m.bits.length < a.bits.length)
    (hdom : (n < 2 ^ 31 ∧ (x.natAbs % z.natAbs) ^ n < z.natAbs) ∨ x.natAbs % z.natAbs ≤ 1) :
    Returns (a.modPow e m) ((x ^ n).tmod z) := by
  have hmv : BigInt.modPowValue a m x z = x.natAbs % z.natAbs := by
    unfold BigInt.modPowValue
    split_ifs with h
    · rfl
    · rw [Nat.mod_eq_of_lt]
      rcases hx with hx | hx
      · rw [Int.abs_eq_natAbs, Int.abs_eq_natAbs] at hx
        exact_mod_cast hx
      · omega
  refine BigInt.modPow_fast ha he hm (len32 hm hz) (Nat.lt_succ_of_lt fa) (by omega) ?_
  rw [hmv]
  rcases hdom with ⟨h1, h2⟩ | h
  · exact .inl ⟨he.bits_nil.2 (by rw [abs_of_nonneg (by omega)]; exact_mod_cast h1), h2⟩
  · exact .inr h

/-- With exponent 1 and as many words as the modulus, the value comes back unreduced, however
large. -/
theorem C18_unreduced (a e m : BigInt) (x z : Int) (ha : a.Denotes x) (he : e.Denotes 1) (hm : m.Denotes z)
    (hz : 2 ^ 992 ≤ |z|) (fm : m.bits.length < 2 ^ 30 - 1) (hlen : a.bits.length = m.bits.length) :
    Returns (a.modPow e m) x :=
  BigInt.modPow_fast_one ha he hm (len32 hm hz) (by omega) (by omega) (by omega)

/-- No modulus of 992 bits or more is exempt: `mod_pow(M, 1, M)`, which should be 0, is `M` for every
one of them. -/
theorem C18_every_modulus (e m : BigInt) (z : Int) (he : e.Denotes 1) (hm : m.Denotes z)
    (hz : 2 ^ 992 ≤ |z|) (fm : m.bits.length < 2 ^ 30 - 1) : Returns (m.modPow e m) z ∧ (z ^ 1).tmod z = 0 :=
  ⟨C18_unreduced m e m z z hm he hm hz fm rfl, by rw [pow_one, Int.tmod_self]⟩

/-- C18, the exact set: among the moduli beyond the `int` range, `mod_pow` is right for all values and
exponents if and only if the modulus is below `2^992`. -/
theorem C18_modulus_exact_iff (m : BigInt) (z : Int) (hm : m.Denotes z) (hz : 2 ^ 31 ≤ |z|) (fm : m.bits.length < 2 ^ 30 - 1) :
    (∀ (a e : BigInt) (x : Int) (n : Nat), a.Denotes x → e.Denotes n → a.Fits → Returns (a.modPow e m) ((x ^ n).tmod z)) ↔ |z| < 2 ^ 992 := by
  have hz0 : z ≠ 0 := by rintro rfl; exact absurd hz (by decide)
  constructor
  · intro h
    by_contra hc
    have he : BigInt.Denotes ⟨1, []⟩ 1 := BigInt.denotes_small (by decide) (by decide)
    obtain ⟨h1, h2⟩ := C18_every_modulus ⟨1, []⟩ m z he hm (not_lt.1 hc) fm
    have h3 := h m ⟨1, []⟩ z 1 hm he (lt_trans fm (by decide))
    rw [h2] at h3
    obtain ⟨b, e1, e2⟩ := h1
    obtain ⟨c, e3, e4⟩ := h3
    obtain rfl : b = c := Res.ok.inj (e1.symm.trans e3)
    exact hz0 (e2.2.symm.trans e4.2)
  · intro h a e x n ha he fa
    exact C16_mod_pow_partial a e m x z n ha he hm fa hz0 h (fun h => by omega)

/-- With exponent 2 the result is the plain square, cut off at the number `k` of words of the
remainder. -/
theorem C18_square (a e m : BigInt) (x z : Int) (ha : a.Denotes x) (he : e.Denotes 2) (hm : m.Denotes z)
    (hz : 2 ^ 992 ≤ |z|) (fm : m.bits.length < 2 ^ 30 - 1) (hlen : a.bits.length ≤ m.bits.length)
    (hpow : z.natAbs ≠ 2 ^ (32 * (m.bits.length - 1))) (k : Nat)
    (hk1 : x.natAbs * x.natAbs % z.natAbs < 2 ^ (32 * k)) (hk2 : k = 0 ∨ 2 ^ (32 * (k - 1)) ≤ x.natAbs * x.natAbs % z.natAbs) :
    Returns (a.modPow e m) (x * x % 2 ^ (32 * k)) := by
  have h := BigInt.modPow_fast_two ha he hm (len32 hm hz) (by omega) (by omega) hlen
    (.inl (by rw [base_pow]; exact hpow)) (k := k) (by unfold WLen; rw [base_pow, base_pow]; exact ⟨hk1, hk2⟩)
  rw [base_pow, Int.natCast_mod, ← Int.natAbs_mul, Int.natCast_natAbs, abs_of_nonneg (mul_self_nonneg x)] at h
  exact_mod_cast h

/-- The failure is not confined to odd corners: for EVERY odd modulus `M ≥ 2^992` the call
`mod_pow(M - 1, 2, M)`, whose answer is 1 as `M - 1` is `-1` there, returns an even number. -/
theorem C18_every_odd_modulus (a e m : BigInt) (z : Int) (ha : a.Denotes (z - 1)) (he : e.Denotes 2) (hm : m.Denotes z)
    (hz : 2 ^ 992 ≤ z) (hodd : z % 2 = 1) (fm : m.bits.length < 2 ^ 30 - 1) :
    ∃ y, Returns (a.modPow e m) y ∧ y % 2 = 0 ∧ ((z - 1) ^ 2).tmod z = 1 := by
  have h2 : (2 : Int) < z := lt_of_lt_of_le (by decide +kernel) hz
  have hzl : 32 ≤ m.bits.length := len32 hm (hz.trans (le_abs_self z))
  obtain ⟨w, rfl⟩ : ∃ w : Nat, z = w + 1 := ⟨(z - 1).toNat, by omega⟩
  have hn : ((w : Int) + 1).natAbs = w + 1 := by omega
  have hx : ((w : Int) + 1 - 1) = w := by omega
  rw [hx] at ha
  have hw : w * w % (w + 1) = 1 := by
    obtain ⟨v, rfl⟩ : ∃ v, w = v + 2 := ⟨w - 2, by omega⟩
    rw [show (v + 2) * (v + 2) = 1 + (v + 2 + 1) * (v + 1) by ring, Nat.add_mul_mod_self_left]
    exact Nat.mod_eq_of_lt (by omega)
  refine ⟨_, C18_square a e m w (w + 1) ha he hm (hz.trans (le_abs_self _)) fm ?_ ?_ 1 ?_ ?_, ?_, ?_⟩
  · exact ha.length_le ((by omega : (w : Int).natAbs ≤ ((w : Int) + 1).natAbs).trans_lt
      (hm.lt_pow (by rintro h; rw [h] at hzl; simp at hzl)))
  · rw [hn]
    intro h
    have : (w + 1) % 2 = 0 := by
      rw [h, show 32 * (m.bits.length - 1) = 32 * (m.bits.length - 1) - 1 + 1 by omega, pow_succ]
      omega
    omega
  · rw [hn, Int.natAbs_natCast, hw]; norm_num
  · rw [hn, Int.natAbs_natCast, hw]; exact .inr (by norm_num)
  · rw [Int.emod_emod_of_dvd _ (by norm_num)]
    obtain ⟨v, rfl⟩ : ∃ v : Nat, w = 2 * v := ⟨w / 2, by omega⟩
    push_cast
    rw [show (2 * (v : Int)) * (2 * v) = 2 * (v * (2 * v)) by ring]
    omega
  · rw [hx, Int.tmod_eq_emod_of_nonneg (by positivity)]
    have : ((w * w % (w + 1) : Nat) : Int) = 1 := by rw [hw]; rfl
    rw [pow_two]; exact_mod_cast this

/-- Against a power of `2^32`, a square of the full `2L` words overruns a scratch buffer. -/
theorem C18_overrun (a e m : BigInt) (x z : Int) (ha : a.Denotes x) (he : e.Denotes 2) (hm : m.Denotes z)
    (hz : 2 ^ 992 ≤ |z|) (fm : m.bits.length < 2 ^ 30 - 1) (hlen : a.bits.length ≤ m.bits.length)
    (hpow : z.natAbs = 2 ^ (32 * (m.bits.length - 1)))
    (hx : 2 ^ (32 * (m.bits.length + m.bits.length - 1)) ≤ x.natAbs * x.natAbs) :
    a.modPow e m = .ub .outOfBounds :=
  BigInt.modPow_fast_two_overrun ha he hm (len32 hm hz) (by omega) (by omega) hlen
    (by rw [base_pow]; exact hpow) (by rw [base_pow]; exact hx)

/-- `2^1023 + 1`. -/
def big32 : BigInt := ⟨1, 1 :: (List.replicate 30 0 ++ [2147483648])⟩
/-- `2^1023 + 2`. -/
def big32' : BigInt := ⟨1, 2 :: (List.replicate 30 0 ++ [2147483648])⟩

theorem big32_denotes : big32.Denotes (2 ^ 1023 + 1) :=
  BigInt.denotes_big (.inl rfl) (by decide) (by decide) (by decide) (by decide +kernel) (by decide +kernel)
theorem big32'_denotes : big32'.Denotes (2 ^ 1023 + 2) :=
  BigInt.denotes_big (.inl rfl) (by decide) (by decide) (by decide) (by decide +kernel) (by decide +kernel)

/-- `mod_pow(M + 1, 1, M)` is `M + 1` for `M = 2^1023 + 1`: not below the modulus. -/
theorem C18_refuted : ∃ (a e m : BigInt) (x z : Int), a.Denotes x ∧ e.Denotes (1 : Nat) ∧ m.Denotes z ∧ 2 ^ 992 ≤ |z| ∧
    ¬ ∃ y, Returns (a.modPow e m) y ∧ |y| < |z| := by
  have he : BigInt.Denotes ⟨1, []⟩ 1 := BigInt.denotes_small (by decide) (by decide)
  refine ⟨big32', ⟨1, []⟩, big32, _, _, big32'_denotes, he, big32_denotes, by decide +kernel, ?_⟩
  rintro ⟨y, ⟨b, h1, h2⟩, h⟩
  obtain ⟨c, h3, h4⟩ := C18_unreduced _ _ _ _ _ big32'_denotes he big32_denotes (by decide +kernel) (by decide) (by decide)
  obtain rfl : b = c := by rw [h1] at h3; exact Res.ok.inj h3
  have := h2.2.symm.trans h4.2
  rw [this] at h
  exact absurd h (by decide +kernel)

/-- `mod_pow(M, 1, M)` is `M` for `M = 2^1023 + 1`. -/
example : Returns (big32.modPow ⟨1, []⟩ big32) (2 ^ 1023 + 1) :=
  (C18_every_modulus _ _ _ (BigInt.denotes_small (by decide) (by decide)) big32_denotes (by decide +kernel) (by decide)).1
example : ¬ ∀ (a e : BigInt) (x : Int) (n : Nat), a.Denotes x → e.Denotes n → a.Fits → Returns (a.modPow e big32) ((x ^ n).tmod (2 ^ 1023 + 1)) :=
  fun h => absurd ((C18_modulus_exact_iff big32 _ big32_denotes (by decide +kernel) (by decide)).1 h) (by decide +kernel)
example (a e : BigInt) (x : Int) (n : Nat) (ha : a.Denotes x) (he : e.Denotes n) (fa : a.Fits) :
    Returns (a.modPow e neg3) ((x ^ n).tmod (-18446744103774322693)) :=
  (C18_modulus_exact_iff neg3 _ neg3_denotes (by decide) (by decide)).2 (by decide +kernel) a e x n ha he fa

example : Returns (neg3.modPow ⟨15, []⟩ big32) (((-18446744103774322693) ^ 15).tmod (2 ^ 1023 + 1)) :=
  C18_mod_pow_partial _ _ _ _ _ 15 neg3_denotes (BigInt.denotes_small (by decide) (by decide)) big32_denotes neg3_fits
    (by decide +kernel) (by decide) (.inl (by decide +kernel)) (.inl ⟨by decide, by decide +kernel⟩)
/-- `C18_square` on `x = 2^1023 + 2`, `M = 2^1023 + 1`: the remainder is 1, one word, the answer 4. -/
example : Returns (big32'.modPow ⟨2, []⟩ big32) ((2 ^ 1023 + 2) * (2 ^ 1023 + 2) % 2 ^ (32 * 1)) :=
  C18_square _ _ _ _ _ big32'_denotes (BigInt.denotes_small (by decide) (by decide)) big32_denotes (by decide +kernel) (by decide)
    (by decide) (by decide +kernel) 1 (by decide +kernel) (by decide +kernel)
/-- `C18_overrun` on `x = 2^1024 - 1`, `M = 2^992`. -/
example : BigInt.modPow ⟨1, List.replicate 32 4294967295⟩ ⟨2, []⟩ ⟨1, List.replicate 31 0 ++ [1]⟩ = .ub .outOfBounds :=
  C18_overrun _ _ _ (2 ^ 1024 - 1) (2 ^ 992)
    (BigInt.denotes_big (.inl rfl) (by decide) (by decide) (by decide) (by decide +kernel) (by decide +kernel))
    (BigInt.denotes_small (by decide) (by decide))
    (BigInt.denotes_big (.inl rfl) (by decide) (by decide) (by decide) (by decide +kernel) (by decide +kernel))
    (by decide +kernel) (by decide) (by decide) (by decide +kernel) (by decide +kernel)

/-- `C18_every_odd_modulus` on `M = 2^1023 + 1`. -/
example : ∃ y, Returns (BigInt.modPow ⟨1, List.replicate 31 0 ++ [2147483648]⟩ ⟨2, []⟩ big32) y ∧ y % 2 = 0 ∧
    ((2 ^ 1023 + 1 - 1 : Int) ^ 2).tmod (2 ^ 1023 + 1) = 1 :=
  C18_every_odd_modulus _ _ _ _
    (BigInt.denotes_big (.inl rfl) (by decide) (by decide) (by decide) (by decide +kernel) (by decide +kernel))
    (BigInt.denotes_small (by decide) (by decide)) big32_denotes (by decide +kernel) (by decide +kernel) (by decide)

/-! ### instances of the remaining theorems -/

example : neg3.pow (-1) = .throw .outOfRange := C15_negative_exponent _ _ (by decide)
example : (neg3.pow 2147483647 = .throw .overflowError) ∨ Returns (neg3.pow 2147483647) ((-18446744103774322693) ^ (2147483647 : Int).toNat) := by
  rcases C15_total _ _ 2147483647 neg3_denotes neg3_fits (by decide) with h | h | h
  · exact absurd h.1 (by decide)
  · exact .inr h.2
  · exact .inl h.2
/-- `mod_pow(-42, 3, 10)`: the remainder -8 comes back as `2^32 - 8`. -/
example : Returns (small.modPow ⟨3, []⟩ ⟨10, []⟩) 4294967288 :=
  C16_wrong_sign _ _ _ (-42) 10 3 small_denotes (BigInt.denotes_small (by decide) (by decide)) (BigInt.denotes_small (by decide) (by decide)) small_fits (by decide) (by decide) (by decide)
example : Returns (pos2.modPow ⟨3, []⟩ small) 15 := by
  have := C16_nonneg pos2 ⟨3, []⟩ small 38654705667 (-42) 3 pos2_denotes (BigInt.denotes_small (by decide) (by decide)) small_denotes pos2_fits (by decide) (by decide +kernel) (by decide)
  rwa [show (38654705667 : Int) ^ 3 % |-42| = 15 by decide] at this
example : small.modPow pos2 zeroInt = .ub .divByZero :=
  C17_unchecked _ _ _ (-42) 38654705667 small_denotes pos2_denotes denotes_zero small_fits (by decide) (by decide)
example : Returns (big32'.modPow ⟨1, []⟩ big32) (2 ^ 1023 + 2) :=
  C18_unreduced _ _ _ _ _ big32'_denotes (BigInt.denotes_small (by decide) (by decide)) big32_denotes (by decide +kernel) (by decide) (by decide)

end BigIntegerCpp
