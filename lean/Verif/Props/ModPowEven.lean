import Mathlib.NumberTheory.LucasLehmer
import Verif.Lemmas.ModPowLow
import Verif.Props.ModPowSafe
import Verif.Props.ModLaws
/-
C85: `mod_pow` of an even number with an odd modulus.  The powers of an even number modulo an odd one are odd about as
often as they are even; `mod_pow` never gives an odd one once the modulus has 993 bits.  So Fermat's test with an even
base (2, say) finds that no such number is prime.
-/
set_option linter.unusedSectionVars false
namespace BigIntegerCpp
open Samples
variable [Cfg]

private theorem short {a m : BigInt} {x z : Int} (ha : a.Denotes x) (hm : m.Denotes z) (h32 : 32 ≤ m.bits.length) (hx : |x| < |z|) :
    a.bits.length ≤ m.bits.length := by
  refine ha.length_le (lt_trans ?_ (hm.lt_pow (by rintro h; rw [h] at h32; simp at h32)))
  rwa [Int.abs_eq_natAbs, Int.abs_eq_natAbs, Nat.cast_lt] at hx

/-- C85.  With a modulus from `2^992` on, a power of two up to `2^32` that divides the base divides whatever `mod_pow`
returns, for every exponent but 0. -/
theorem C85_divisor (a e m : BigInt) (x z : Int) (n k : Nat) (ha : a.Denotes x) (he : e.Denotes n) (hm : m.Denotes z)
    (hz : 2 ^ 992 ≤ |z|) (fm : m.bits.length < 2 ^ 30 - 1) (hx : |x| < |z|) (hn : n ≠ 0) (hk : k ≤ 32) (hd : 2 ^ k ∣ x)
    (y : Int) (hy : Returns (a.modPow e m) y) : 2 ^ k ∣ y := by
  have h32 := len32 hm hz
  have hl := short ha hm h32 hx
  obtain ⟨r, e1, e2⟩ := hy
  have h := BigInt.modPow_low_dvd (d := 2 ^ k) (show 2 ^ k ∣ 2 ^ 32 from pow_dvd_pow 2 hk) ha he hm h32 (by omega) (by omega) hn (by
    unfold BigInt.modPowValue
    rw [if_neg (by omega)]
    have := Int.natAbs_dvd_natAbs.2 hd
    rwa [Int.natAbs_pow] at this) r e1
  replace h : ((2 ^ k : Nat) : Int) ∣ r.toInt := h
  rw [e2.2, Nat.cast_pow, Nat.cast_ofNat] at h
  exact h

/-- C85.  So it is wrong for every even base and every exponent for which the right answer is odd. -/
theorem C85_odd_residue (a e m : BigInt) (x z : Int) (n : Nat) (ha : a.Denotes x) (he : e.Denotes n) (hm : m.Denotes z)
    (hz : 2 ^ 992 ≤ |z|) (fm : m.bits.length < 2 ^ 30 - 1) (hx : |x| < |z|) (hx2 : x % 2 = 0) (hn : n ≠ 0)
    (hodd : (x ^ n).tmod z % 2 = 1 ∨ (x ^ n).tmod z % 2 = -1) : ¬ Returns (a.modPow e m) ((x ^ n).tmod z) := by
  intro h
  have := C85_divisor a e m x z n 1 ha he hm hz fm hx hn (by decide) (by rw [pow_one]; exact Int.dvd_of_emod_eq_zero hx2) _ h
  rw [pow_one] at this
  have := Int.emod_eq_zero_of_dvd this
  omega

/-- C85.  In a release build an even base below an odd modulus from `2^992` on always gives an even answer. -/
theorem C85_even (a e m : BigInt) (x z : Int) (n : Nat) (ha : a.Denotes x) (he : e.Denotes n) (hm : m.Denotes z)
    (hz : 2 ^ 992 ≤ |z|) (hz2 : z % 2 = 1) (fm : m.bits.length < 2 ^ 30 - 1) (hx : |x| < |z|) (hx2 : x % 2 = 0) (hn : n ≠ 0)
    (hrel : Cfg.ndebug = true) : ∃ y, Returns (a.modPow e m) y ∧ y % 2 = 0 := by
  have h32 := len32 hm hz
  have hl := short ha hm h32 hx
  have hp : ¬ ∃ k : Nat, |z| = (2 ^ 32) ^ k := by
    rintro ⟨k, hk⟩
    have h2 : |z| % 2 = 1 := by
      rcases abs_choice z with h | h <;> rw [h] <;> omega
    cases k with
    | zero => rw [hk] at hz; exact absurd hz (by decide +kernel)
    | succ k =>
      have : (2 : Int) ∣ |z| := by rw [hk]; exact (dvd_pow (by decide) (by omega))
      have := Int.emod_eq_zero_of_dvd this
      omega
  obtain ⟨y, h1, -, -⟩ := C83_release a e m x z n ha he hm (lt_of_le_of_lt hl (lt_of_lt_of_le fm (by decide))) hz fm hp hrel
  refine ⟨y, h1, ?_⟩
  have := C85_divisor a e m x z n 1 ha he hm hz fm hx hn (by decide) (by rw [pow_one]; exact Int.dvd_of_emod_eq_zero hx2) y h1
  rw [pow_one] at this
  exact Int.emod_eq_zero_of_dvd this

/-- C85.  Fermat's test: for a prime `p` and an even base below it, `mod_pow(a, p - 1, p)` is 1 if and only if `p` is
below `2^992`. -/
theorem C85_fermat (a e m : BigInt) (x : Int) (p : Nat) (hp : p.Prime) (ha : a.Denotes x) (he : e.Denotes ((p - 1 : Nat) : Int))
    (hm : m.Denotes p) (fm : m.bits.length < 2 ^ 30 - 1) (hx0 : 0 < x) (hxp : x < p) (hx2 : x % 2 = 0) :
    Returns (a.modPow e m) 1 ↔ p < 2 ^ 992 := by
  constructor
  · intro h
    by_contra hc
    have hz : (2 : Int) ^ 992 ≤ |(p : Int)| := by
      rw [abs_of_nonneg (Int.natCast_nonneg p)]
      have : ((2 ^ 992 : Nat) : Int) ≤ p := Int.ofNat_le.2 (not_lt.1 hc)
      rwa [Nat.cast_pow, Nat.cast_ofNat] at this
    have := C85_divisor a e m x p (p - 1) 1 ha he hm hz fm
      (by rw [abs_of_pos hx0, abs_of_nonneg (Int.natCast_nonneg p)]; exact hxp) (by omega) (by decide)
      (by rw [pow_one]; exact Int.dvd_of_emod_eq_zero hx2) 1 h
    rw [pow_one] at this
    omega
  · intro h
    refine C63_fermat_partial a e m x p hp ha he hm ?_ hx0.le (fun hd => ?_) h
    · have : |x| < |(2 : Int) ^ 992| := by
        rw [abs_of_pos hx0, abs_of_pos (by positivity)]
        refine hxp.trans ?_
        have : (p : Int) < ((2 ^ 992 : Nat) : Int) := Int.ofNat_lt.2 h
        rwa [Nat.cast_pow, Nat.cast_ofNat] at this
      have hl : a.bits.length ≤ 31 := ha.length_le_of_lt (by
        rw [Int.abs_eq_natAbs, Int.abs_eq_natAbs, Nat.cast_lt, Int.natAbs_pow] at this
        exact this)
      exact lt_of_le_of_lt hl (by decide)
    · exact absurd (Int.le_of_dvd hx0 hd) (not_le.2 hxp)

/-- C85.  Every odd modulus from `2^992` on: `mod_pow(2, L, M)`, where `L` is the number of bits of `M`, is not
`2^L - M`. -/
theorem C85_every_odd_modulus (e m : BigInt) (z L : Nat) (he : e.Denotes L) (hm : m.Denotes z) (hz : 2 ^ 992 ≤ z)
    (hodd : z % 2 = 1) (fm : m.bits.length < 2 ^ 30 - 1) (hL : 2 ^ (L - 1) ≤ z) (hL2 : z < 2 ^ L) :
    ((2 : Int) ^ L).tmod z = 2 ^ L - z ∧ ¬ Returns (BigInt.modPow ⟨2, []⟩ e m) (2 ^ L - z) := by
  have hL1 : 1 < L := by
    by_contra hc
    have : 2 ^ L ≤ 2 ^ 1 := Nat.pow_le_pow_right (by decide) (by omega)
    exact absurd ((hz.trans_lt hL2).trans_le this) (by decide +kernel)
  have hL0 : L ≠ 0 := by omega
  have h1 : 2 ^ (L - 1) = 2 * 2 ^ (L - 2) := by rw [← Nat.pow_succ']; congr 1; omega
  have h2 : 2 ^ L = 2 * 2 ^ (L - 1) := by rw [← Nat.pow_succ']; congr 1; omega
  have h3 : (2 : Int) ^ L = ((2 ^ L : Nat) : Int) := by rw [Nat.cast_pow, Nat.cast_ofNat]
  have hr : ((2 : Int) ^ L).tmod z = 2 ^ L - z := by
    rw [h3, ← Int.ofNat_tmod, Nat.mod_eq_sub_mod hL2.le, Nat.mod_eq_of_lt (by omega)]
    omega
  refine ⟨hr, ?_⟩
  have hz' : (2 : Int) ^ 992 ≤ |(z : Int)| := by
    rw [abs_of_nonneg (Int.natCast_nonneg z)]
    have : ((2 ^ 992 : Nat) : Int) ≤ z := Int.ofNat_le.2 hz
    rwa [Nat.cast_pow, Nat.cast_ofNat] at this
  have h4 : 2 < z := lt_of_lt_of_le (by decide +kernel) hz
  rw [← hr]
  refine C85_odd_residue ⟨2, []⟩ e m 2 z L (BigInt.denotes_small (by decide) (by decide)) he hm hz' fm ?_ (by decide) hL0 ?_
  · rw [abs_of_nonneg (Int.natCast_nonneg z), abs_of_pos (by decide)]; exact_mod_cast h4
  · left; rw [hr, h3]; omega

/-! ### a prime of 1279 bits -/

/-- `2^1279 - 1`, and the number before it. -/
private def m1279 : BigInt := ⟨1, List.replicate 39 4294967295 ++ [2147483647]⟩
private def e1279 : BigInt := ⟨1, 4294967294 :: (List.replicate 38 4294967295 ++ [2147483647])⟩
private theorem prime1279 : (mersenne 1279).Prime := lucas_lehmer_sufficiency _ (by simp) (by norm_num)
private theorem m1279_denotes : m1279.Denotes (mersenne 1279 : Nat) := ⟨⟨by decide, by decide, by decide, by decide, by decide, nofun⟩, by decide +kernel⟩
private theorem e1279_denotes : e1279.Denotes ((mersenne 1279 - 1 : Nat) : Int) := ⟨⟨by decide, by decide, by decide, by decide, by decide, nofun⟩, by decide +kernel⟩
private theorem two : (⟨2, []⟩ : BigInt).Denotes 2 := BigInt.denotes_small (by decide) (by decide)

/-- `2^(p - 1)` modulo the prime `p = 2^1279 - 1` is not found to be 1. -/
example : ¬ Returns (BigInt.modPow ⟨2, []⟩ e1279 m1279) 1 := fun h =>
  absurd ((C85_fermat ⟨2, []⟩ e1279 m1279 2 _ prime1279 two e1279_denotes m1279_denotes (by decide) (by decide) (by decide +kernel) (by decide)).1 h)
    (by decide +kernel)
/-- `mod_pow(6, 65536, 65537)` is 1. -/
example : Returns (BigInt.modPow ⟨6, []⟩ ⟨65536, []⟩ ⟨65537, []⟩) 1 :=
  (C85_fermat ⟨6, []⟩ ⟨65536, []⟩ ⟨65537, []⟩ 6 65537 (by norm_num) (BigInt.denotes_small (by decide) (by decide))
    (BigInt.denotes_small (by decide) (by decide)) (BigInt.denotes_small (by decide) (by decide)) (by decide) (by decide) (by decide) (by decide)).2
    (by decide +kernel)
example (hrel : Cfg.ndebug = true) : ∃ y, Returns (BigInt.modPow ⟨2, []⟩ e1279 m1279) y ∧ y % 2 = 0 :=
  C85_even ⟨2, []⟩ e1279 m1279 2 _ _ two e1279_denotes m1279_denotes (by decide +kernel) (by decide +kernel) (by decide) (by decide +kernel)
    (by decide) (by decide +kernel) hrel
example (y : Int) (h : Returns (BigInt.modPow ⟨3145728, []⟩ pos2 m1279) y) : 2 ^ 20 ∣ y :=
  C85_divisor ⟨3145728, []⟩ pos2 m1279 3145728 _ 38654705667 20 (BigInt.denotes_small (by decide) (by decide)) pos2_denotes m1279_denotes
    (by decide +kernel) (by decide) (by decide +kernel) (by decide) (by decide) (by decide) y h
/-- `2^1279` modulo `2^1279 - 1` is 1. -/
example : ¬ Returns (BigInt.modPow ⟨2, []⟩ ⟨1279, []⟩ m1279) (((2 : Int) ^ 1279).tmod (mersenne 1279 : Nat)) :=
  C85_odd_residue ⟨2, []⟩ ⟨1279, []⟩ m1279 2 _ 1279 two (BigInt.denotes_small (by decide) (by decide)) m1279_denotes
    (by decide +kernel) (by decide) (by decide +kernel) (by decide) (by decide) (by decide +kernel)
example : ¬ Returns (BigInt.modPow ⟨2, []⟩ ⟨1279, []⟩ m1279) (2 ^ 1279 - (mersenne 1279 : Nat)) :=
  (C85_every_odd_modulus ⟨1279, []⟩ m1279 _ 1279 (BigInt.denotes_small (by decide) (by decide)) m1279_denotes (by decide +kernel)
    (by decide +kernel) (by decide) (by decide +kernel) (by decide +kernel)).2
end BigIntegerCpp
