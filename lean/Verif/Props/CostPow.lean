import Verif.Lemmas.CostPow
import Verif.Props.Samples
/-
C70: what powers and modular powers cost.

`Cost.pow` and `Cost.modPow` (Model/CostPow.lean) are `pow` and `mod_pow` with a count of steps
(iterations of a loop, words filled or copied), of the nesting of recursive calls, and of the words of
temporary arrays alive at the same time.
-/
set_option linter.unusedSectionVars false
namespace BigIntegerCpp
variable [Cfg]
open Samples Counted

/-- C70.  `pow(a, p)` for `a` of `n` words (one for the numbers kept without words) and `p` of `L` bits, with
`N = 1 + p·n` the words the power may need: at most `22·N² + (10·N + 2)·L` steps, and `O(N·log N)` words. -/
theorem C70_pow {a : BigInt} (ha : a.Valid) (hl : a.bits.length < 2147483648) {p L k N : Nat} (hN : N = 1 + p * max 1 a.bits.length)
    (hL : p < 2 ^ L) (hk : 4 ≤ k) (hk2 : N ≤ 2 ^ (k + 1)) :
    (Cost.pow a p).res = a.pow p ∧
    (Cost.pow a p).steps ≤ 22 * N ^ 2 + (10 * N + 2) * L ∧
    (Cost.pow a p).depth ≤ k - 3 ∧ (Cost.pow a p).words ≤ 4 * N + 4 * 2 ^ k + (k - 4) * (2 * N + 8) := by
  have := Cost.pow_within ha hl hN hk (by rw [pow_succ] at hk2; omega) hL
  refine ⟨Cost.pow_res a p, this.1.trans ?_, this.2, this.3.trans ?_⟩
  · rw [sq, Nat.add_mul, Nat.mul_assoc 10]
    omega
  · unfold Cost.mulWords
    omega

/-- C70.  `mod_pow(a, e, m)` for a modulus in the `int` range and an exponent of `L` bits: one step per word of
the base and one per bit of the exponent, and no storage. -/
theorem C70_mod_pow_word (a : BigInt) {e m : BigInt} {n L : Nat} (he : e.Denotes n) (hn : n < 2 ^ L) (hm : m.bits = []) :
    (Cost.modPow a e m).res = a.modPow e m ∧
    (Cost.modPow a e m).steps ≤ a.bits.length + L ∧ (Cost.modPow a e m).depth = 0 ∧ (Cost.modPow a e m).words = 0 := by
  have := Cost.modPow_word_within a he hn hm
  exact ⟨Cost.modPow_res a e m, this.1, Nat.le_zero.1 this.2, Nat.le_zero.1 this.3⟩

/-- C70.  `mod_pow(a, e, m)` for a modulus of `m < 32` words, a base of `l` words and an exponent of `L` bits: at
most `(6·m² + 34·m + 9)·L + l·(2·m + 8) + 14·m` steps and `2·l + 10·m` words. -/
theorem C70_mod_pow {a e m : BigInt} {n L : Nat} (ha : a.Valid) (hla : a.bits.length < 2147483648) (he : e.Denotes n) (hn : n < 2 ^ L)
    (hm : m.Valid) (hmb : m.bits ≠ []) (h32 : m.bits.length < 32) :
    (Cost.modPow a e m).res = a.modPow e m ∧
    (Cost.modPow a e m).steps ≤ (6 * m.bits.length ^ 2 + 34 * m.bits.length + 9) * L + a.bits.length * (2 * m.bits.length + 8) + 14 * m.bits.length ∧
    (Cost.modPow a e m).depth ≤ 1 ∧ (Cost.modPow a e m).words ≤ 2 * a.bits.length + 10 * m.bits.length := by
  have := Cost.modPow_within ha hla he hn hm hmb h32
  refine ⟨Cost.modPow_res a e m, this.1.trans ?_, this.2, this.3⟩
  unfold Cost.redBound
  rw [sq, show 2 * (3 * (m.bits.length * m.bits.length) + 17 * m.bits.length + 4) + 1 = 6 * (m.bits.length * m.bits.length) + 34 * m.bits.length + 9 by ring]
  omega

/-- C70.  From below: with `|x| ≥ 2`, an exponent `p ≥ 2` of at least `L + 1` bits, and a power that fits, `pow`
copies three buffers of `N` words for every bit of the exponent, however short the numbers in them are. -/
theorem C70_pow_low {a : BigInt} {x : Int} (ha : a.Denotes x) (hx : 2 ≤ x.natAbs) (hl : a.bits.length < 2147483648) {p L N : Nat}
    (hN0 : N = 1 + p * max 1 a.bits.length) (hN : N < 2147483647) (hp2 : 2 ≤ p) (hp : 2 ^ L ≤ p) :
    3 * N * (L + 2) ≤ (Cost.pow a p).steps :=
  Cost.pow_low ha hx hl hN0 hN hp2 hp

/-- C70.  With a modulus in the `int` range and an exponent of exactly `L + 1` bits the count is exact. -/
theorem C70_mod_pow_word_exact {a e m : BigInt} {x z : Int} {n L : Nat} (ha : a.Denotes x) (he : e.Denotes n) (hn1 : 2 ^ L ≤ n) (hn2 : n < 2 ^ (L + 1))
    (hm : m.Denotes z) (hz : z ≠ 0) (hmb : m.bits = []) (hla : a.bits.length < 2147483648) :
    (Cost.modPow a e m).steps = a.bits.length + (L + 1) :=
  Nat.le_antisymm (C70_mod_pow_word a he hn2 hmb).2.1 (Cost.modPow_word_low ha he hn1 hm hz hmb hla)

/-- `(-18446744103774322693)^10`: three words, `N = 31`. -/
example : (Cost.pow neg3 10).steps ≤ 22390 ∧ (Cost.pow neg3 10).depth ≤ 1 :=
  have h := C70_pow (p := 10) (L := 4) (k := 4) (N := 31) neg3_denotes.1 (by decide) (by decide) (by decide) (by decide) (by decide)
  ⟨h.2.1, h.2.2.1⟩
example : (Cost.modPow neg3 pos2 ⟨-97, []⟩).steps ≤ 39 :=
  (C70_mod_pow_word neg3 (n := 38654705667) (L := 36) pos2_denotes (by decide) rfl).2.1
example : (Cost.modPow neg3 pos2 pos2).steps ≤ 3700 :=
  (C70_mod_pow (n := 38654705667) (L := 36) neg3_denotes.1 (by decide) pos2_denotes (by decide) pos2_denotes.1 (by decide) (by decide)).2.1.trans (by decide)
example : 310 ≤ (Cost.pow neg3 10).steps :=
  (by decide : 310 ≤ 3 * 31 * (3 + 2)).trans (C70_pow_low (p := 10) (L := 3) (N := 31) neg3_denotes (by decide) (by decide) (by decide) (by decide) (by decide) (by decide))
example : (Cost.modPow neg3 pos2 ⟨-97, []⟩).steps = 39 :=
  C70_mod_pow_word_exact (n := 38654705667) (L := 35) (z := -97) neg3_denotes pos2_denotes (by decide) (by decide)
    (BigInt.denotes_small (by decide) (by decide)) (by decide) rfl (by decide)
end BigIntegerCpp
