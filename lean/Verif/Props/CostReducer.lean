import Verif.Lemmas.CostReducer
import Verif.Props.ModPowSafe
/-
C84: what modular powers cost when the modulus has 32 words or more.

`Cost.modPow` (Model/CostPow.lean) is `mod_pow` with a count of steps (iterations of a loop, words filled
or copied), of the nesting of recursive calls, and of the words of temporary arrays alive at the same time.
Such moduli are reduced by a precomputed reciprocal, with two multiplications for each reduction.
-/
set_option linter.unusedSectionVars false
namespace BigIntegerCpp
variable [Cfg]
open Samples Counted

/-- C84.  `mod_pow(a, e, m)` for a modulus of `K ≥ 32` words, a base of `l` words and an exponent of `L` bits: at
most `(42·K² + 146·K + 79)·(L + 32) + l·(2·K + 8) + 2·(K + 2)² + 27·K + 9` steps, however the call ends: the loop
that corrects the estimate of the quotient goes at most twice round.  Storage is `O(l + K·log K)` words. -/
theorem C84_mod_pow {a e m : BigInt} {n L k K : Nat} (ha : a.Valid) (hla : a.bits.length < 2147483648) (he : e.Denotes n) (hn : n < 2 ^ L)
    (hm : m.Valid) (hK : m.bits.length = K) (h32 : 32 ≤ K) (hk : K + 1 ≤ 2 ^ k) :
    (Cost.modPow a e m).res = a.modPow e m ∧
    (Cost.modPow a e m).steps ≤ (42 * K ^ 2 + 146 * K + 79) * (L + 32) + a.bits.length * (2 * K + 8) + 2 * (K + 2) ^ 2 + 27 * K + 9 ∧
    (Cost.modPow a e m).depth ≤ k - 3 ∧
    (Cost.modPow a e m).words ≤ 2 * a.bits.length + 4 * 2 ^ k + (k - 4) * (2 * K + 12) + 21 * K + 6 := by
  subst hK
  have hk4 : 4 ≤ k := by
    by_contra hc
    have : 2 ^ k ≤ 2 ^ 4 := Nat.pow_le_pow_right (by decide) (by omega)
    omega
  have := Cost.modPow_fast_within ha hla he hn hm h32 hk4 hk
  refine ⟨Cost.modPow_res a e m, this.1.trans ?_, this.2, this.3.trans ?_⟩
  · have e1 : Cost.bitBound m.bits.length = 42 * m.bits.length ^ 2 + 146 * m.bits.length + 79 := by
      unfold Cost.bitBound Cost.fastBound; ring
    rw [e1]
    omega
  · have e2 : 2 * (m.bits.length + 2) + 8 = 2 * m.bits.length + 12 := by omega
    unfold Cost.fastWords Cost.mulWords
    rw [e2]
    omega

/-- C84.  From below: a call that returns copies eight times the words of the modulus for every bit of every word
of the exponent, leading zeros of the last word included, however small the base is. -/
theorem C84_mod_pow_low {a e m r : BigInt} (ha : a.Valid) (hla : a.bits.length < 2147483648) (hm : m.Valid) (h32 : 32 ≤ m.bits.length)
    (he : e.bits ≠ []) (hr : a.modPow e m = .ok r) : 32 * e.bits.length * (8 * m.bits.length) ≤ (Cost.modPow a e m).steps :=
  Cost.modPow_low ha hla hm h32 he (by rw [Cost.modPow_res]; exact hr)

/-- A modulus and a base of 64 words and an exponent of 36 bits. -/
example : (Cost.modPow high64 pos2 mod64).steps ≤ 13000000 ∧ (Cost.modPow high64 pos2 mod64).depth ≤ 4 :=
  have h := C84_mod_pow (n := 38654705667) (L := 36) (k := 7) (K := mod64.bits.length) high64_denotes.1 (by decide) pos2_denotes (by decide) mod64_denotes.1 rfl (by decide) (by decide)
  ⟨h.2.1.trans (by decide), h.2.2.1⟩

/-- `1` to the power `9·2^32 + 3`: a step count of at least 32768 for the result `1`. -/
example : 32768 ≤ (Cost.modPow ⟨1, []⟩ pos2 mod64).steps := by
  have h : BigInt.modPow ⟨1, []⟩ pos2 mod64 = .ok ⟨1, []⟩ := by
    rename_i c
    obtain ⟨d, s⟩ := c
    cases d <;> cases s <;> decide +kernel
  have := C84_mod_pow_low (BigInt.denotes_small (s := 1) (by decide) (by decide)).1 (by decide) mod64_denotes.1 (by decide) (by decide) h
  exact (by decide : 32768 ≤ 32 * pos2.bits.length * (8 * mod64.bits.length)).trans this
end BigIntegerCpp
