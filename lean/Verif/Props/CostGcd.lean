import Verif.Lemmas.CostGcd
import Verif.Lemmas.Sizes
import Verif.Props.GcdActual
/-
C81: what `greatest_common_divisor` costs.

`Cost.gcd` (Model/CostGcd.lean) is `greatest_common_divisor` with a count of steps (iterations of a loop, words
filled or copied), of the nesting of recursive calls, and of the words of temporary arrays alive at the same time.
As in Model/Gcd.lean the first argument bounds the iterations of its main loop, which need not end (C20).
-/
set_option linter.unusedSectionVars false
namespace BigIntegerCpp
variable [Cfg]
open Samples Counted

/-- C81.  Whether or not the call ends: `n` iterations on operands of at most `m` words take at most
`n·(10·m + 68) + 6·m² + 35·m + 133` steps, no recursion and `8·m` words, however large `n` is. -/
theorem C81_gcd_iterations (n m : Nat) {a b : BigInt} (ha : a.Valid) (hb : b.Valid) (ma : a.bits.length ≤ m) (mb : b.bits.length ≤ m) :
    (Cost.gcd n a b).res = BigInt.gcd n a b ∧
    (Cost.gcd n a b).steps ≤ n * (10 * m + 68) + 6 * m ^ 2 + 35 * m + 133 ∧
    (Cost.gcd n a b).depth = 0 ∧ (Cost.gcd n a b).words ≤ 8 * m := by
  have h := Cost.gcd_big_within (d := 0) (w := 0) n ha hb ma mb
  refine ⟨Cost.gcd_res n a b, h.1.trans ?_, Nat.le_zero.1 h.2, h.3.trans (by omega)⟩
  unfold Cost.iterCost
  rw [sq]

/-- C81.  With an operand below `2^64` (two words at most) the time is linear in the other. -/
theorem C81_gcd_short (n m : Nat) {a b : BigInt} (ha : a.Valid) (hb : b.Valid) (h : a.bits.length ≤ 2 ∨ b.bits.length ≤ 2)
    (ma : a.bits.length ≤ m) (mb : b.bits.length ≤ m) :
    (Cost.gcd n a b).res = BigInt.gcd n a b ∧
    (Cost.gcd n a b).steps ≤ 20 * m + 129 ∧ (Cost.gcd n a b).depth = 0 ∧ (Cost.gcd n a b).words ≤ m := by
  have h := Cost.gcd_short_within (d := 0) (w := 0) n ha hb h ma mb
  exact ⟨Cost.gcd_res n a b, h.1, Nat.le_zero.1 h.2, h.3.trans (by omega)⟩

theorem log2_lt_bits {a : BigInt} {x : Int} (ha : a.Denotes x) (h : 1 ≤ a.bits.length) : Nat.log2 x.natAbs < 32 * a.bits.length := by
  refine log2_lt_of (by omega) ?_
  have := natAbs_lt_words ha
  rwa [Nat.max_eq_right h, show (𝔹 : Nat) = 2 ^ 32 from rfl, ← pow_mul] at this

theorem large_of_words {a : BigInt} {x : Int} (ha : a.Denotes x) (h : 3 ≤ a.bits.length) : 2 ^ 64 ≤ |x| := by
  rcases ha.shape with ⟨rfl, -, -⟩ | ⟨s, ws, rfl, hs, hne, hw, ht, hv, rfl⟩
  · simp at h
  · rw [Int.abs_eq_natAbs, natAbs_unit_mul hs]
    have hl := wlen_trimLen hw
    rw [trimLen_of_top ht] at hl
    have h1 : (𝔹 : Nat) ^ 2 ≤ 𝔹 ^ (ws.length - 1) := Nat.pow_le_pow_right (by decide) (by have : 3 ≤ ws.length := h; omega)
    have h2 : (𝔹 : Nat) ^ (ws.length - 1) ≤ val ws := hl.2.resolve_left (by have : 3 ≤ ws.length := h; omega)
    have h3 : (𝔹 : Nat) ^ 2 = 2 ^ 64 := by decide
    have : 2 ^ 64 ≤ val ws := by omega
    exact_mod_cast this

/-- C81.  A call that ends, in whatever way, takes at most `1286·m² + 8739·m + 133` steps for operands of at most `m`
words, whatever the bound on the iterations. -/
theorem C81_gcd_quadratic (n m : Nat) {a b : BigInt} (ha : a.Valid) (hb : b.Valid) (fa : a.Fits) (fb : b.Fits)
    (ma : a.bits.length ≤ m) (mb : b.bits.length ≤ m) (h : BigInt.gcd n a b ≠ .diverge) :
    (Cost.gcd n a b).steps ≤ 1286 * m ^ 2 + 8739 * m + 133 := by
  by_cases hs : a.bits.length ≤ 2 ∨ b.bits.length ≤ 2
  · have := (C81_gcd_short n m ha hb hs ma mb).2.1
    omega
  have da : a.Denotes a.toInt := ⟨ha, rfl⟩
  have db : b.Denotes b.toInt := ⟨hb, rfl⟩
  have l1 := log2_lt_bits da (by omega)
  have l2 := log2_lt_bits db (by omega)
  have x1 := large_of_words da (by omega)
  have x2 := large_of_words db (by omega)
  have key : ∀ k, k ≤ 128 * m → (Cost.gcd k a b).steps ≤ 1286 * m ^ 2 + 8739 * m + 133 := by
    intro k hk
    have h1 := (C81_gcd_iterations k m ha hb ma mb).2.1
    have h2 := Nat.mul_le_mul_right (10 * m + 68) hk
    have h3 : 128 * m * (10 * m + 68) = 1280 * m ^ 2 + 8704 * m := by ring
    omega
  by_cases hn : n ≤ 2 * (Nat.log2 a.toInt.natAbs + Nat.log2 b.toInt.natAbs) + 3
  · exact key n (by omega)
  · have hd := C20_decided a b _ _ da db fa fb x1 x2 n (by omega)
    rw [hd] at h
    rw [Cost.gcd_same_le (show 2 * (Nat.log2 a.toInt.natAbs + Nat.log2 b.toInt.natAbs) + 3 ≤ n by omega) a b h]
    exact key _ (by omega)

/-- C81.  Once a call has ended, a larger bound on the iterations changes neither its outcome nor its cost. -/
theorem C81_gcd_cost_settled (n fuel : Nat) (a b : BigInt) (h : BigInt.gcd n a b ≠ .diverge) (hf : n ≤ fuel) :
    Cost.gcd fuel a b = Cost.gcd n a b :=
  Cost.gcd_same_le hf a b h

/-- C81.  A call that does not end is not stuck in one place: every iteration copies both arrays, so that `n`
iterations take at least `n·(words of a + words of b + 1)` steps, in at most `8·m` words by `C81_gcd_iterations`. -/
theorem C81_gcd_forever (n : Nat) {a b : BigInt} (ha : a.Valid) (hb : b.Valid) (h : BigInt.gcd n a b = .diverge) :
    n * (a.bits.length + b.bits.length + 1) ≤ (Cost.gcd n a b).steps :=
  Cost.gcd_low n ha hb h

/-- C81.  Hence a call returns, throws or fails exactly when its cost is bounded. -/
theorem C81_gcd_bounded_iff {a b : BigInt} (ha : a.Valid) (hb : b.Valid) :
    (∃ n, BigInt.gcd n a b ≠ .diverge) ↔ ∃ s, ∀ n, (Cost.gcd n a b).steps ≤ s := by
  constructor
  · rintro ⟨n, hn⟩
    refine ⟨n * (10 * (a.bits.length + b.bits.length) + 68) + 6 * (a.bits.length + b.bits.length) ^ 2 + 35 * (a.bits.length + b.bits.length) + 133, fun k => ?_⟩
    rcases Nat.le_total n k with h | h
    · rw [Cost.gcd_same_le h a b hn]
      exact (C81_gcd_iterations n _ ha hb (by omega) (by omega)).2.1
    · refine ((C81_gcd_iterations k (a.bits.length + b.bits.length) ha hb (by omega) (by omega)).2.1).trans ?_
      have := Nat.mul_le_mul_right (10 * (a.bits.length + b.bits.length) + 68) h
      omega
  · rintro ⟨s, hs⟩
    refine ⟨s + 1, fun h => ?_⟩
    have h1 := C81_gcd_forever (s + 1) ha hb h
    have h2 := hs (s + 1)
    have h3 := Nat.mul_le_mul_left (s + 1) (show 1 ≤ a.bits.length + b.bits.length + 1 by omega)
    omega

/-- Two Euclidean steps on six and four words. -/
example : (Cost.gcd 100 ⟨1, [0, 0, 1, 0, 0, 1]⟩ ⟨-1, [0, 0, 0, 16]⟩).steps ≤ 1286 * 6 ^ 2 + 8739 * 6 + 133 :=
  C81_gcd_quadratic 100 6 two_steps_left.1 two_steps_right.1 (by decide) (by decide) (by decide) (by decide) (by
    obtain ⟨r, e, -⟩ := C19_gcd_partial _ _ _ _ two_steps_left two_steps_right (by decide) (by decide) (by exact two_steps) 101 (by decide) 100 (by decide)
    rw [e]; nofun)
example : (Cost.gcd 1000000 neg3 pos2).steps ≤ 189 ∧ (Cost.gcd 1000000 neg3 pos2).words ≤ 3 :=
  have h := C81_gcd_short 1000000 3 neg3_denotes.1 pos2_denotes.1 (.inr (by decide)) (by decide) (by decide)
  ⟨h.2.1, h.2.2.2⟩
/-- `5·2^64` and `-3·2^64`: for ever, in at most 24 words of storage. -/
example (n : Nat) : 7 * n ≤ (Cost.gcd n ⟨1, [0, 0, 5]⟩ ⟨-1, [0, 0, 3]⟩).steps ∧ (Cost.gcd n ⟨1, [0, 0, 5]⟩ ⟨-1, [0, 0, 3]⟩).words ≤ 24 :=
  ⟨by
    have := C81_gcd_forever n five_denotes.1 minus_three_denotes.1
      (C20_diverges _ _ _ _ 2 five_denotes minus_three_denotes (by decide) (by decide) (by decide) (by decide) (by decide) n)
    simp only [List.length_cons, List.length_nil] at this
    omega,
   (C81_gcd_iterations n 3 five_denotes.1 minus_three_denotes.1 (by decide) (by decide)).2.2.2⟩
example : ¬ ∃ s, ∀ n, (Cost.gcd n ⟨1, [0, 0, 5]⟩ ⟨-1, [0, 0, 3]⟩).steps ≤ s := by
  rw [← C81_gcd_bounded_iff five_denotes.1 minus_three_denotes.1]
  rintro ⟨n, h⟩
  exact h (C20_diverges _ _ _ _ 2 five_denotes minus_three_denotes (by decide) (by decide) (by decide) (by decide) (by decide) n)
example (fuel : Nat) (h : 2 ≤ fuel) : Cost.gcd fuel ⟨1, [0, 0, 0, 1]⟩ ⟨1, [0, 0, 3221225472]⟩ = Cost.gcd 2 ⟨1, [0, 0, 0, 1]⟩ ⟨1, [0, 0, 3221225472]⟩ :=
  C81_gcd_cost_settled 2 fuel _ _ (by rw [C19_wrong 2 (le_refl _)]; nofun) h

end BigIntegerCpp
