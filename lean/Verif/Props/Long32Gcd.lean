import Verif.Lemmas.Long32Gcd
import Verif.Props.Gcd
/-
C86, continued: `greatest_common_divisor` where `long` has 32 bits.
-/
set_option linter.unusedSectionVars false
namespace BigIntegerCpp
open Samples
variable [Cfg]

/-- The greatest common divisor is the exact one if no Lehmer step is called for; otherwise the call is undefined,
also where with a `long` of 64 bits it would not return, fail an assertion or return a wrong number. -/
theorem C86_gcd (a b : BigInt) (x y : Int) (ha : a.Denotes x) (hb : b.Denotes y) (fa : a.Fits) (fb : b.Fits)
    (n : Nat) (hn : min x.natAbs y.natAbs < 2 ^ n) (fuel : Nat) (hf : 2 * n - 126 ≤ fuel) :
    (EuclidOnly (max x.natAbs y.natAbs) (min x.natAbs y.natAbs) → Returns (Long32.gcd fuel a b) (Int.gcd x y)) ∧
    (¬ EuclidOnly (max x.natAbs y.natAbs) (min x.natAbs y.natAbs) → Long32.gcd fuel a b = .ub .badShift) := by
  have h := Long32.gcd_spec ha hb (Nat.lt_succ_of_lt fa) (Nat.lt_succ_of_lt fb) fuel
  refine ⟨fun hE => ?_, fun hE => h.2 hE (le_trans (euclidCount_le _ hn) (by omega))⟩
  rw [h.1 hE]
  exact C19_gcd_partial a b x y ha hb fa fb hE n hn fuel hf

/-- As long as no Lehmer step is called for, nothing differs from the other builds, the number of iterations included. -/
theorem C86_gcd_same (a b : BigInt) (x y : Int) (ha : a.Denotes x) (hb : b.Denotes y) (fa : a.Fits) (fb : b.Fits)
    (hE : EuclidOnly (max x.natAbs y.natAbs) (min x.natAbs y.natAbs)) (fuel : Nat) :
    Long32.gcd fuel a b = BigInt.gcd fuel a b :=
  (Long32.gcd_spec ha hb (Nat.lt_succ_of_lt fa) (Nat.lt_succ_of_lt fb) fuel).1 hE

/-- One operand below `2^64`, the other of any size: exact. -/
theorem C86_gcd_below_64_bits (a b : BigInt) (x y : Int) (ha : a.Denotes x) (hb : b.Denotes y) (fa : a.Fits) (fb : b.Fits)
    (h : |x| < 2 ^ 64 ∨ |y| < 2 ^ 64) (fuel : Nat) : Returns (Long32.gcd fuel a b) (Int.gcd x y) := by
  have h' : min x.natAbs y.natAbs < 2 ^ 64 := by
    rw [Int.abs_eq_natAbs, Int.abs_eq_natAbs] at h
    omega
  rw [C86_gcd_same a b x y ha hb fa fb (.small _ _ h')]
  exact C19_below_64_bits a b x y ha hb fa fb h fuel

example (fuel : Nat) : Returns (Long32.gcd fuel neg3 pos2) (Int.gcd (-18446744103774322693) 38654705667) :=
  C86_gcd_below_64_bits _ _ _ _ neg3_denotes pos2_denotes neg3_fits pos2_fits (.inr (by decide)) _

/-- `5 * 2^64` and `-3 * 2^64` call for a Lehmer step … -/
example (fuel : Nat) (hf : 8 ≤ fuel) : Long32.gcd fuel ⟨1, [0, 0, 5]⟩ ⟨-1, [0, 0, 3]⟩ = .ub .badShift :=
  (C86_gcd _ _ _ _ five_denotes minus_three_denotes (by decide) (by decide) 67 (by decide) fuel hf).2 (by
    intro h
    have e : max (5 * 2 ^ 64 : Int).natAbs (-(3 * 2 ^ 64) : Int).natAbs = 5 * 2 ^ 64 := by decide
    have e' : min (5 * 2 ^ 64 : Int).natAbs (-(3 * 2 ^ 64) : Int).natAbs = 3 * 2 ^ 64 := by decide
    rw [e, e'] at h
    generalize hX : 5 * 2 ^ 64 = X at h
    generalize hY : 3 * 2 ^ 64 = Y at h
    cases h with
    | small _ _ h => omega
    | step _ _ _ hs _ =>
      subst hX hY
      revert hs
      unfold EuclidStep
      decide)

/-- … and a number with itself does not. -/
example (fuel : Nat) (hf : 4 ≤ fuel) : Returns (Long32.gcd fuel neg3 neg3) 18446744103774322693 := by
  rw [C86_gcd_same _ _ _ _ neg3_denotes neg3_denotes neg3_fits neg3_fits (euclidOnly_of_dvd (by decide) (by decide))]
  exact C19_divisor _ _ _ _ neg3_denotes neg3_denotes neg3_fits neg3_fits (by decide) (dvd_refl _) _ (by omega)

end BigIntegerCpp
