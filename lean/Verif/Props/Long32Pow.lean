import Verif.Long32ModSpec
import Verif.Lemmas.Long32ModPow
import Verif.Props.Pow
import Verif.Props.Long32
/-
C86, continued: `pow` and `mod_pow` where `long` has 32 bits.
-/
set_option linter.unusedSectionVars false
namespace BigIntegerCpp
open Samples
variable [Cfg]

private theorem short_iff (v n : Nat) : ShortFactors v n ↔ ¬ Long32.Bad (2 ^ 992) n v 1 := by
  unfold ShortFactors
  by_cases h0 : n = 0
  · subst h0
    rw [Long32.Bad, dif_pos rfl]
    simp
  rw [Long32.bad_one_iff (Nat.one_lt_two_pow (by decide)) (Nat.log2_self_le h0) Nat.lt_log2_self]
  by_cases h1 : n < 2
  · have : n = 1 := by omega
    subst this
    exact iff_of_true (.inl (by decide)) (fun h => by have := h.1; revert this; decide)
  have hL : 1 ≤ n.log2 := (Nat.le_log2 h0).2 (by omega)
  rw [not_and, not_or, not_le, not_le]
  exact ⟨fun h _ => h.resolve_left h1, fun h => .inr (h hL)⟩

/-! ### `pow` -/

private theorem pow_early (a : BigInt) (x : Int) (n : Nat) (ha : a.Denotes x) (h : n ≤ 1 ∨ x.natAbs ≤ 1) :
    Long32.pow a n = a.pow n := by
  unfold Long32.pow BigInt.pow
  by_cases h0 : (n : Int) = 0
  · simp only [h0, if_true]
  by_cases h1 : (n : Int) = 1
  · simp only [h1, if_true]
  have hx : x.natAbs ≤ 1 := h.resolve_left (by omega)
  have hb : a.bits = [] := ha.bits_nil.2 (by rw [abs_lt]; omega)
  have hs : a.sign = x := by
    rcases ha.shape with ⟨rfl, -, -⟩ | ⟨s, ws, rfl, -, hne, -⟩
    · rfl
    · exact absurd hb hne
  have : a.sign = 1 ∨ a.sign = -1 ∨ a.sign = 0 := by omega
  rcases this with h | h | h
  · simp only [hb, h, true_and, if_true]
  · simp only [hb, h, true_and, if_true]
  · simp only [hb, h, true_and, if_true]

/-- `pow` gives the exact power when no product has two factors of 993 bits or more; otherwise it is undefined. -/
theorem C86_pow (a : BigInt) (x : Int) (n : Nat) (ha : a.Denotes x) (fa : a.Fits) (hn : IntRange n)
    (hsize : n ≤ 1 ∨ |x| ≤ 1 ∨ 1 + n * max 1 a.bits.length < 2 ^ 31 - 1) :
    (ShortFactors x.natAbs n → Returns (Long32.pow a n) (x ^ n)) ∧
    (¬ ShortFactors x.natAbs n → Long32.pow a n = .ub .badShift) := by
  rw [short_iff, not_not]
  have hx1 : |x| ≤ 1 ↔ x.natAbs ≤ 1 := by rw [abs_le]; omega
  by_cases h : n ≤ 1 ∨ x.natAbs ≤ 1
  · rw [pow_early a x n ha h]
    refine ⟨fun _ => C15_pow a x n ha fa hn hsize, fun hb => ?_⟩
    rw [← not_not (a := Long32.Bad _ _ _ _), ← short_iff] at hb
    refine (hb ?_).elim
    rcases h with h | h
    · exact .inl (by omega)
    · have hlt : ∀ k, x.natAbs ^ k < 2 ^ 992 := fun k =>
        lt_of_le_of_lt (npow_le_one h k) (Nat.one_lt_two_pow (by decide))
      exact .inr ⟨hlt _, hlt _⟩
  · rw [not_or] at h
    refine Long32.pow_spec ha (Nat.lt_succ_of_lt fa) (by omega) h.2 ?_
    rcases hsize with h' | h' | h'
    · omega
    · exact (h.2 (hx1.1 h')).elim
    · exact h'

/-- The two exceptions of `pow` are as in the other builds. -/
theorem C86_pow_exceptions (a : BigInt) (x : Int) (n : Int) (ha : a.Denotes x) (fa : a.Fits) (hn : IntRange n) :
    (n < 0 → Long32.pow a n = .throw .outOfRange) ∧
    (2 ≤ n → 2 ≤ |x| → 2 ^ 31 - 1 ≤ 1 + n * max 1 a.bits.length → Long32.pow a n = .throw .overflowError) := by
  refine ⟨fun h => by unfold Long32.pow; rw [if_pos h], fun h1 h2 h3 => ?_⟩
  obtain ⟨k, rfl⟩ := Int.eq_ofNat_of_zero_le (show 0 ≤ n by omega)
  have h64 := C15_overflow a x k ha fa hn (by omega) h2 (by
    have : ((1 + k * max 1 a.bits.length : Nat) : Int) = 1 + k * max 1 a.bits.length := by push_cast; rfl
    omega)
  rw [← h64]
  rw [le_abs] at h2
  have hpb : ∀ len : Nat, 2147483647 ≤ 1 + k * len → powBound k len 1 = .throw .overflowError := fun len hlen => by
    rw [powBound_spec k (by decide), if_neg (by omega)]
  have hcalc : ∀ (mk : Nat → Res BitsBuffer) (len : Nat), 2147483647 ≤ 1 + k * len →
      Long32.powCalc mk len k = powCalc mk len k := fun mk len hlen => by
    unfold Long32.powCalc powCalc
    rw [hpb len hlen, Res.throw_bind, Res.throw_bind]
  have hmax : 2147483647 ≤ 1 + k * max 1 a.bits.length := by
    have : ((1 + k * max 1 a.bits.length : Nat) : Int) = 1 + k * max 1 a.bits.length := by push_cast; rfl
    omega
  unfold Long32.pow BigInt.pow
  rw [Int.toNat_natCast]
  by_cases hb : a.bits = []
  · rw [hb] at hmax
    simp only [hb, if_true]
    rw [show max 1 ([] : List Nat).length = 1 from rfl] at hmax
    simp only [hcalc _ 1 hmax]
  · have hl : 1 ≤ a.bits.length := List.length_pos_iff.2 hb
    rw [Nat.max_eq_right hl] at hmax
    simp only [hb, if_false, hcalc _ _ hmax]

-- `(2^64 - 1)^24` has 1536 bits and is right; the next power of two, `(2^64 - 1)^32`, is undefined
example : Returns (Long32.pow allOnes 24) ((2 ^ 64 - 1) ^ 24) :=
  (C86_pow allOnes _ 24 allOnes_denotes (by decide) (by decide) (.inr (.inr (by decide)))).1 (by decide +kernel)
example : Long32.pow allOnes 32 = .ub .badShift :=
  (C86_pow allOnes _ 32 allOnes_denotes (by decide) (by decide) (.inr (.inr (by decide)))).2 (by decide +kernel)
example : Long32.pow neg3 800000000 = .throw .overflowError ∧ Long32.pow neg3 (-1) = .throw .outOfRange :=
  ⟨(C86_pow_exceptions neg3 _ 800000000 neg3_denotes neg3_fits (by decide)).2 (by decide) (by decide) (by decide),
   (C86_pow_exceptions neg3 _ (-1) neg3_denotes neg3_fits (by decide)).1 (by decide)⟩

/-! ### `mod_pow` -/

/-- Moduli below `2^992` in magnitude, zero included, and exponents of any sign: `mod_pow` does what it does in the other
builds. -/
theorem C86_mod_pow (a e m : BigInt) (x y z : Int) (ha : a.Denotes x) (he : e.Denotes y) (hm : m.Denotes z)
    (fa : a.Fits) (hz : |z| < 2 ^ 992) : Long32.modPow a e m = a.modPow e m := by
  refine Long32.modPow_eq ha he hm ?_ (Nat.lt_succ_of_lt fa)
  have : z.natAbs < 2 ^ (32 * 31) := by
    rw [Int.abs_eq_natAbs] at hz
    exact_mod_cast hz
  have := hm.length_le_of_lt (k := 31) this
  omega

/-- Larger moduli, with a base that is smaller than the modulus or is reduced first because it has more words: the power
is right if it is below the modulus, so that there is nothing to reduce, and no product has two factors of 993 bits or
more; in every other case `mod_pow` is undefined. -/
theorem C86_mod_pow_large (a e m : BigInt) (x z : Int) (n : Nat) (ha : a.Denotes x) (he : e.Denotes n) (hm : m.Denotes z)
    (fa : a.Fits) (hz : 2 ^ 992 ≤ |z|) (fm : m.bits.length < 2 ^ 30 - 1)
    (hx : |x| < |z| ∨ m.bits.length < a.bits.length) :
    ((x.natAbs % z.natAbs) ^ n < z.natAbs ∧ ShortFactors (x.natAbs % z.natAbs) n →
      Returns (Long32.modPow a e m) ((x ^ n).tmod z)) ∧
    (¬ ((x.natAbs % z.natAbs) ^ n < z.natAbs ∧ ShortFactors (x.natAbs % z.natAbs) n) →
      ∃ u, Long32.modPow a e m = .ub u) := by
  have hmv : BigInt.modPowValue a m x z = x.natAbs % z.natAbs := by
    unfold BigInt.modPowValue
    split_ifs with h
    · rfl
    · rw [Nat.mod_eq_of_lt]
      rcases hx with hx | hx
      · rw [Int.abs_eq_natAbs, Int.abs_eq_natAbs] at hx
        exact_mod_cast hx
      · omega
  have := Long32.modPow_fast ha he hm (len32 hm hz) (Nat.lt_succ_of_lt fa) (by omega)
  rwa [hmv, ← short_iff] at this

/-- A base that is not smaller than the modulus but has no more words is not reduced first: undefined for every exponent
but zero. -/
theorem C86_mod_pow_unreduced (a e m : BigInt) (x z : Int) (n : Nat) (ha : a.Denotes x) (he : e.Denotes n) (hm : m.Denotes z)
    (hz : 2 ^ 992 ≤ |z|) (fm : m.bits.length < 2 ^ 30 - 1) (hx : |z| ≤ |x|) (hl : a.bits.length ≤ m.bits.length)
    (hn : 1 ≤ n) : ∃ u, Long32.modPow a e m = .ub u := by
  refine (Long32.modPow_fast ha he hm (len32 hm hz) (by omega) (by omega)).2 fun h => ?_
  have hmv : BigInt.modPowValue a m x z = x.natAbs := by rw [BigInt.modPowValue, if_neg (by omega)]
  rw [hmv] at h
  rw [Int.abs_eq_natAbs, Int.abs_eq_natAbs] at hx
  have h1 : z.natAbs ≤ x.natAbs := by exact_mod_cast hx
  have h2 : x.natAbs ≤ x.natAbs ^ n := Nat.le_self_pow (by omega) _
  omega

/-- Words of the base against words of a large modulus. -/
private theorem words_lt_iff {a m : BigInt} {x z : Int} (ha : a.Denotes x) (hm : m.Denotes z) (hz : 32 ≤ m.bits.length) :
    m.bits.length < a.bits.length ↔ z.natAbs.log2 / 32 < x.natAbs.log2 / 32 := by
  have two : ∀ {b : BigInt} {y : Int}, b.Denotes y → 2 ≤ b.bits.length → b.bits.length = y.natAbs.log2 / 32 + 1 := by
    intro b y hb h2
    have hy : y.natAbs ≠ 0 := by
      intro h0
      have := hb.length_le_of_lt (k := 0) (by rw [h0]; decide)
      omega
    have up : b.bits.length ≤ y.natAbs.log2 / 32 + 1 := by
      refine hb.length_le_of_lt (lt_of_lt_of_le Nat.lt_log2_self (Nat.pow_le_pow_right (by decide) ?_))
      omega
    have lo : y.natAbs.log2 / 32 < b.bits.length := by
      by_cases h0 : y.natAbs.log2 / 32 = 0
      · omega
      · exact hb.lt_length (le_trans (Nat.pow_le_pow_right (by decide) (by omega)) (Nat.log2_self_le hy)) (by omega)
    omega
  have h1 := two hm (by omega)
  by_cases h : 2 ≤ a.bits.length
  · have h2 := two ha h
    omega
  · have : ¬ 1 ≤ x.natAbs.log2 / 32 := by
      intro hc
      have hx : x.natAbs ≠ 0 := by rintro h0; rw [h0] at hc; exact absurd hc (by decide)
      have := ha.lt_length (k := 1) (le_trans (Nat.pow_le_pow_right (by decide) (by omega)) (Nat.log2_self_le hx)) (by decide)
      omega
    omega

/-- Larger moduli, any base: right exactly if the power of the base, reduced first or not, is below the modulus and no
product has two factors of 993 bits or more; undefined otherwise. -/
theorem C86_mod_pow_any_base (a e m : BigInt) (x z : Int) (n : Nat) (ha : a.Denotes x) (he : e.Denotes n) (hm : m.Denotes z)
    (fa : a.Fits) (hz : 2 ^ 992 ≤ |z|) (fm : m.bits.length < 2 ^ 30 - 1) :
    (PowerBase x z ^ n < z.natAbs ∧ ShortFactors (PowerBase x z) n → Returns (Long32.modPow a e m) ((x ^ n).tmod z)) ∧
    (¬ (PowerBase x z ^ n < z.natAbs ∧ ShortFactors (PowerBase x z) n) → ∃ u, Long32.modPow a e m = .ub u) := by
  have hmv : BigInt.modPowValue a m x z = PowerBase x z := by
    unfold BigInt.modPowValue PowerBase
    exact if_congr (words_lt_iff ha hm (len32 hm hz)) rfl rfl
  have := Long32.modPow_fast ha he hm (len32 hm hz) (Nat.lt_succ_of_lt fa) (by omega)
  rwa [hmv, ← short_iff] at this

example (a e m : BigInt) (x : Int) (ha : a.Denotes x) (he : e.Denotes (1 : Nat)) (hm : m.Denotes x) (fa : a.Fits)
    (hx : 2 ^ 992 ≤ |x|) (fm : m.bits.length < 2 ^ 30 - 1) : ∃ u, Long32.modPow a e m = .ub u := by
  refine (C86_mod_pow_any_base a e m x x 1 ha he hm fa hx fm).2 fun h => ?_
  rw [PowerBase, if_neg (lt_irrefl _), pow_one] at h
  exact lt_irrefl _ h.1

example : Returns (Long32.modPow neg3 ⟨5, []⟩ pos2) (((-18446744103774322693 : Int) ^ 5).tmod 38654705667) := by
  have h5 : BigInt.Denotes ⟨5, []⟩ (5 : Nat) := BigInt.denotes_small (by decide) (by decide)
  rw [C86_mod_pow neg3 ⟨5, []⟩ pos2 _ _ _ neg3_denotes h5 pos2_denotes neg3_fits (by decide +kernel)]
  exact C16_mod_pow_partial _ _ _ _ _ 5 neg3_denotes h5 pos2_denotes neg3_fits (by decide) (by decide +kernel) (by decide)

-- `mod_pow(38654705667, n, M)` with `M` of 32 words: right for `n = 28`, undefined for `n = 29`, where there is
-- something to reduce
example : Returns (Long32.modPow pos2 ⟨28, []⟩ wide) ((38654705667 ^ 28 : Int).tmod (val (List.replicate 32 1) : Nat)) ∧
    ∃ u, Long32.modPow pos2 ⟨29, []⟩ wide = .ub u :=
  ⟨(C86_mod_pow_large pos2 ⟨28, []⟩ wide _ _ 28 pos2_denotes (BigInt.denotes_small (by decide) (by decide)) wide_denotes
      pos2_fits (by decide +kernel) (by decide) (.inl (by decide +kernel))).1 (by decide +kernel),
   (C86_mod_pow_large pos2 ⟨29, []⟩ wide _ _ 29 pos2_denotes (BigInt.denotes_small (by decide) (by decide)) wide_denotes
      pos2_fits (by decide +kernel) (by decide) (.inl (by decide +kernel))).2 (by decide +kernel)⟩
example : ∃ u, Long32.modPow wide ⟨1, []⟩ wide = .ub u :=
  C86_mod_pow_unreduced wide ⟨1, []⟩ wide _ _ 1 wide_denotes (BigInt.denotes_small (by decide) (by decide)) wide_denotes
    (by decide +kernel) (by decide) (le_refl _) (le_refl _) (by decide)

end BigIntegerCpp
