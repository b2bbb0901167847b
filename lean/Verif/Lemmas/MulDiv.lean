import Verif.Lemmas.Arith
import Verif.Lemmas.SquMul
import Verif.Lemmas.DivRem
/-
Multiplication, division and remainder of objects.
-/
namespace BigIntegerCpp
set_option linter.unusedSectionVars false
set_option linter.unnecessarySeqFocus false
variable [Cfg]

theorem tdiv_natAbs (x y : Int) : x.tdiv y =
    if (decide (x < 0) ^^ decide (y < 0)) = true then -((x.natAbs / y.natAbs : Nat) : Int) else ((x.natAbs / y.natAbs : Nat) : Int) := by
  rcases Int.natAbs_eq x with hx | hx <;> rcases Int.natAbs_eq y with hy | hy <;>
    generalize x.natAbs = m at * <;> generalize y.natAbs = n at * <;> subst hx <;> subst hy <;>
    rcases Nat.eq_zero_or_pos m with rfl | hm <;> rcases Nat.eq_zero_or_pos n with rfl | hn <;>
    simp [Int.neg_tdiv, Int.tdiv_neg, *, not_lt.2 (Int.natCast_nonneg _)]

theorem tmod_natAbs (x y : Int) : x.tmod y =
    if x < 0 then -((x.natAbs % y.natAbs : Nat) : Int) else ((x.natAbs % y.natAbs : Nat) : Int) := by
  rcases Int.natAbs_eq x with hx | hx <;> rcases Int.natAbs_eq y with hy | hy <;>
    generalize x.natAbs = m at * <;> generalize y.natAbs = n at * <;> subst hx <;> subst hy <;>
    rcases Nat.eq_zero_or_pos m with rfl | hm <;>
    simp [Int.neg_tmod, Int.tmod_neg, *, not_lt.2 (Int.natCast_nonneg _), Int.tmod_eq_emod_of_nonneg (Int.natCast_nonneg _)]

theorem natAbs_unit_mul {s : Int} (hs : s = 1 ∨ s = -1) (n : Nat) : (s * (n : Int)).natAbs = n := by
  rcases hs with rfl | rfl <;> omega

theorem unit_mul_neg {s : Int} (hs : s = 1 ∨ s = -1) {n : Nat} (hn : 0 < n) : s * (n : Int) < 0 ↔ s < 0 := by
  rcases hs with rfl | rfl <;> omega

namespace BigInt

theorem signXor_mul {a b : BigInt} {x y : Int} (ha : a.Denotes x) (hb : b.Denotes y) {n : Nat}
    (hn : n = x.natAbs * y.natAbs) : x * y = if signXor a b then -(n : Int) else n := by
  unfold signXor
  have h1 := ha.sign_neg
  have h2 := hb.sign_neg
  simp only [h1, h2, hn]
  push_cast
  rcases lt_or_ge x 0 with hx | hx <;> rcases lt_or_ge y 0 with hy | hy <;>
    simp [hx, hy, not_lt.2, abs_of_neg, abs_of_nonneg]

theorem signXor_div {a b : BigInt} {x y : Int} (ha : a.Denotes x) (hb : b.Denotes y) {n : Nat}
    (hn : n = x.natAbs / y.natAbs) : x.tdiv y = if signXor a b then -(n : Int) else n := by
  rw [tdiv_natAbs, hn]
  unfold signXor
  simp only [ha.sign_neg, hb.sign_neg]

theorem mul_small {s t : Int} (h1 : -2147483648 < s) (h2 : s < 2147483648) (h3 : -2147483648 < t)
    (h4 : t < 2147483648) : -9223372036854775808 < s * t ∧ s * t < 9223372036854775808 := by
  constructor <;> nlinarith

theorem mul_spec {a b : BigInt} {x y : Int} (ha : a.Denotes x) (hb : b.Denotes y)
    (hl : a.bits.length + b.bits.length < 2147483647) : Returns (a.mul b) (x * y) := by
  unfold mul
  rw [ha.assertValid, hb.assertValid]
  simp only [Res.ok_bind]
  have hsx := fun n hn => signXor_mul ha hb (n := n) hn
  rcases ha.shape with ⟨rfl, h1, h2⟩ | ⟨s, xs, rfl, hs1, hne1, hw1, ht1, hv1, rfl⟩ <;>
    rcases hb.shape with ⟨rfl, h1', h2'⟩ | ⟨t, ys, rfl, hs2, hne2, hw2, ht2, hv2, rfl⟩
  · obtain ⟨h5, h6⟩ := mul_small h1 h2 h1' h2'
    simp only [and_self, if_true]
    rw [long_ok (by omega) (by omega)]
    exact ofInt64_spec h5 h6
  · simp only [hne2, and_false, if_false, if_true]
    rw [cabs_ok (by omega)]
    obtain ⟨r, hr, hlr, hwr, hvr⟩ := multiplyWord_spec hw2 hne2 (y := x.natAbs) (by omega)
    simp only [Res.ok_bind, hr]
    simp only at hl
    apply returns_ofMagnitude hwr (by rw [hlr]; simp at hl; omega)
    apply hsx
    rw [hvr, natAbs_unit_mul hs2, Nat.mul_comm]
  · simp only [hne1, false_and, if_false, if_true]
    rw [cabs_ok (by omega)]
    obtain ⟨r, hr, hlr, hwr, hvr⟩ := multiplyWord_spec hw1 hne1 (y := y.natAbs) (by omega)
    simp only [Res.ok_bind, hr]
    apply returns_ofMagnitude hwr (by rw [hlr]; simp at hl; omega)
    apply hsx
    rw [hvr, natAbs_unit_mul hs1]
  · simp only [hne1, hne2, and_self, if_false]
    simp only at hl
    by_cases he : xs = ys
    · subst he
      rw [if_pos rfl]
      obtain ⟨r, hr, hlr, hwr, hvr⟩ := squareVec_spec hw1 hne1 (by omega)
      simp only [Res.ok_bind, hr]
      apply returns_ofMagnitude hwr (by omega)
      apply hsx
      rw [hvr, natAbs_unit_mul hs1, natAbs_unit_mul hs2]
    · rw [if_neg he]
      by_cases hlt : xs.length < ys.length
      · rw [if_pos hlt]
        obtain ⟨r, hr, hlr, hwr, hvr⟩ := multiplyVec_spec hw2 hw1 hne2 hne1 (by omega) (by omega)
        simp only [Res.ok_bind, hr]
        apply returns_ofMagnitude hwr (by omega)
        apply hsx
        rw [hvr, natAbs_unit_mul hs1, natAbs_unit_mul hs2, Nat.mul_comm]
      · rw [if_neg hlt]
        obtain ⟨r, hr, hlr, hwr, hvr⟩ := multiplyVec_spec hw1 hw2 hne1 hne2 (by omega) (by omega)
        simp only [Res.ok_bind, hr]
        apply returns_ofMagnitude hwr (by omega)
        apply hsx
        rw [hvr, natAbs_unit_mul hs1, natAbs_unit_mul hs2]

theorem tdiv_bounds {x y : Int} (h1 : -2147483648 < x) (h2 : x < 2147483648) :
    -2147483648 < x.tdiv y ∧ x.tdiv y < 2147483648 := by
  rw [tdiv_natAbs]
  have := Nat.div_le_self x.natAbs y.natAbs
  generalize x.natAbs / y.natAbs = m at *
  split_ifs <;> omega

theorem tmod_bounds {x y : Int} (h1 : -2147483648 < x) (h2 : x < 2147483648) :
    -2147483648 < x.tmod y ∧ x.tmod y < 2147483648 := by
  rw [tmod_natAbs]
  have := Nat.mod_le x.natAbs y.natAbs
  generalize x.natAbs % y.natAbs = m at *
  split_ifs <;> omega

theorem tdiv_zero_of_lt {x y : Int} (h : x.natAbs < y.natAbs) : x.tdiv y = 0 := by
  rw [tdiv_natAbs, Nat.div_eq_of_lt h]; simp

theorem tmod_self_of_lt {x y : Int} (h : x.natAbs < y.natAbs) : x.tmod y = x := by
  rw [tmod_natAbs, Nat.mod_eq_of_lt h]; split_ifs <;> omega

/-- Fewer words means a smaller value. -/
theorem val_lt_of_length {xs ys : List Nat} (hx : WordsOk xs) (hyn : ys ≠ []) (hty : ys.getLast? ≠ some 0)
    (h : xs.length < ys.length) : val xs < val ys := by
  have h1 := val_lt hx
  have h2 := val_pos_of_top hyn hty
  have h3 : 𝔹 ^ xs.length ≤ 𝔹 ^ (ys.length - 1) := Nat.pow_le_pow_right (by decide) (by omega)
  omega

theorem div_spec {a b : BigInt} {x y : Int} (ha : a.Denotes x) (hb : b.Denotes y) (hy : y ≠ 0)
    (hl : a.bits.length < 2147483648) : Returns (a.div b) (x.tdiv y) := by
  unfold div
  rw [ha.assertValid, hb.assertValid]
  simp only [Res.ok_bind]
  have hsx := fun n hn => signXor_div ha hb (n := n) hn
  rcases ha.shape with ⟨rfl, h1, h2⟩ | ⟨s, xs, rfl, hs1, hne1, hw1, ht1, hv1, rfl⟩ <;>
    rcases hb.shape with ⟨rfl, h1', h2'⟩ | ⟨t, ys, rfl, hs2, hne2, hw2, ht2, hv2, rfl⟩
  · obtain ⟨h5, h6⟩ := tdiv_bounds (y := y) h1 h2
    simp only [and_self, if_true, hy, if_false]
    rw [int_ok (by omega) (by omega)]
    exact ofInt64_spec (by omega) (by omega)
  · simp only [hne2, and_false, if_false, if_true]
    rw [tdiv_zero_of_lt (by rw [natAbs_unit_mul hs2]; omega)]
    exact returns_ok denotes_zero
  · simp only [hne1, false_and, if_false, if_true]
    rw [cabs_ok (by omega)]
    obtain ⟨r, hr, hlr, hwr, hvr⟩ := divideWord_spec hw1 hne1 hl (y := y.natAbs) (by omega) (by omega)
    simp only [Res.ok_bind, hr]
    apply returns_ofMagnitude hwr (by rw [hlr]; exact hl)
    apply hsx
    rw [hvr, natAbs_unit_mul hs1]
  · simp only [hne1, hne2, and_self, if_false]
    by_cases hlt : xs.length < ys.length
    · rw [if_pos hlt, tdiv_zero_of_lt (by
        rw [natAbs_unit_mul hs1, natAbs_unit_mul hs2]; exact val_lt_of_length hw1 hne2 ht2 hlt)]
      exact returns_ok denotes_zero
    · rw [if_neg hlt]
      simp only at hl
      obtain ⟨r, hr, hlr, hwr, hvr⟩ := divideVec_spec hw1 hw2 hne2 ht2 (by omega) hl
      simp only [Res.ok_bind, hr]
      have : 0 < ys.length := List.length_pos_iff.2 hne2
      apply returns_ofMagnitude hwr (by omega)
      apply hsx
      rw [hvr, natAbs_unit_mul hs1, natAbs_unit_mul hs2]

theorem rem_spec {a b : BigInt} {x y : Int} (ha : a.Denotes x) (hb : b.Denotes y) (hy : y ≠ 0)
    (hl : a.bits.length < 2147483648) : Returns (a.rem b) (x.tmod y) := by
  unfold rem
  rw [ha.assertValid, hb.assertValid]
  simp only [Res.ok_bind]
  have hsx := ha.sign_neg
  rcases ha.shape with ⟨rfl, h1, h2⟩ | ⟨s, xs, rfl, hs1, hne1, hw1, ht1, hv1, rfl⟩ <;>
    rcases hb.shape with ⟨rfl, h1', h2'⟩ | ⟨t, ys, rfl, hs2, hne2, hw2, ht2, hv2, rfl⟩
  · obtain ⟨h5, h6⟩ := tdiv_bounds (y := y) h1 h2
    obtain ⟨h7, h8⟩ := tmod_bounds (y := y) h1 h2
    simp only [and_self, if_true, hy, if_false]
    rw [int_ok (by omega) (by omega)]
    exact ofInt32_spec (by omega) (by omega)
  · simp only [hne2, and_false, if_false, if_true]
    rw [tmod_self_of_lt (by rw [natAbs_unit_mul hs2]; omega)]
    exact returns_ok ha
  · simp only [hne1, false_and, if_false, if_true]
    rw [cabs_ok (by omega)]
    simp only [Res.ok_bind, remainderWord_spec hw1 hne1 hl (y := y.natAbs) (by omega) (by omega)]
    simp only at hsx
    have hm : val xs % y.natAbs < y.natAbs := Nat.mod_lt _ (by omega)
    rw [tmod_natAbs, natAbs_unit_mul hs1]
    simp only [← hsx]
    split_ifs
    · rw [neg_one_mul]; exact ofInt64_spec (by omega) (by omega)
    · exact ofInt64_spec (by omega) (by omega)
  · simp only [hne1, hne2, and_self, if_false]
    by_cases hlt : xs.length < ys.length
    · rw [if_pos hlt, tmod_self_of_lt (by
        rw [natAbs_unit_mul hs1, natAbs_unit_mul hs2]; exact val_lt_of_length hw1 hne2 ht2 hlt)]
      exact returns_ok ha
    · rw [if_neg hlt]
      simp only at hl
      obtain ⟨r, hr, hlr, hwr, hvr⟩ := remainderVec_spec hw1 hw2 hne2 ht2 (by omega) hl
      simp only [Res.ok_bind, hr]
      apply returns_ofMagnitude hwr (by omega)
      rw [tmod_natAbs, natAbs_unit_mul hs1, natAbs_unit_mul hs2, hvr]
      simp only [← hsx, decide_eq_true_eq]

/-- What `div_rem` stores as the remainder: the truncated remainder, except that a negative
remainder of a multi-word dividend by a single-word divisor is taken modulo `2^32`. -/
def divRemRest (a b : BigInt) (x y : Int) : Int :=
  if a.bits ≠ [] ∧ b.bits = [] ∧ x.tmod y < 0 then x.tmod y + 4294967296 else x.tmod y

theorem divRem_spec {a b : BigInt} {x y : Int} (ha : a.Denotes x) (hb : b.Denotes y) (hy : y ≠ 0)
    (hl : a.bits.length < 2147483648) :
    ∃ q r, a.divRem b = .ok (q, r) ∧ q.Denotes (x.tdiv y) ∧ r.Denotes (divRemRest a b x y) := by
  unfold divRem divRemRest
  rw [ha.assertValid, hb.assertValid]
  simp only [Res.ok_bind]
  have hsx := fun n hn => signXor_div ha hb (n := n) hn
  have hsn := ha.sign_neg
  rcases ha.shape with ⟨rfl, h1, h2⟩ | ⟨s, xs, rfl, hs1, hne1, hw1, ht1, hv1, rfl⟩ <;>
    rcases hb.shape with ⟨rfl, h1', h2'⟩ | ⟨t, ys, rfl, hs2, hne2, hw2, ht2, hv2, rfl⟩
  · obtain ⟨h5, h6⟩ := tdiv_bounds (y := y) h1 h2
    obtain ⟨h7, h8⟩ := tmod_bounds (y := y) h1 h2
    simp only [and_self, if_true, hy, if_false]
    rw [int_ok (by omega) (by omega)]
    obtain ⟨r, hr, hrd⟩ := ofInt32_spec (z := x.tmod y) (by omega) (by omega)
    obtain ⟨q, hq, hqd⟩ := ofInt32_spec (z := x.tdiv y) (by omega) (by omega)
    exact ⟨q, r, by simp [hr, hq], hqd, by simpa using hrd⟩
  · simp only [hne2, and_false, if_false, if_true, false_and]
    rw [tmod_self_of_lt (by rw [natAbs_unit_mul hs2]; omega), tdiv_zero_of_lt (by rw [natAbs_unit_mul hs2]; omega)]
    exact ⟨_, _, rfl, denotes_zero, ha⟩
  · simp only [hne1, false_and, if_false, if_true, ne_eq, not_false_eq_true, true_and]
    rw [cabs_ok (by omega)]
    obtain ⟨q, hq, hlq, hwq, hvq⟩ := divideWordRem_spec hw1 hne1 hl (y := y.natAbs) (by omega) (by omega)
    simp only [Res.ok_bind, hq]
    simp only at hsn
    have hm : val xs % y.natAbs < y.natAbs := Nat.mod_lt _ (by omega)
    have hR : Returns (ofUInt32 (if s < 0 then u32i (-1 * ((val xs % y.natAbs : Nat) : Int)) else val xs % y.natAbs))
        (if (s * (val xs : Int)).tmod y < 0 then (s * (val xs : Int)).tmod y + 4294967296 else (s * (val xs : Int)).tmod y) := by
      rw [tmod_natAbs, natAbs_unit_mul hs1]
      simp only [← hsn]
      generalize val xs % y.natAbs = m at hm
      by_cases hs : s < 0
      · rw [if_pos hs, if_pos hs]
        have hu : u32i (-1 * (m : Int)) = if m = 0 then 0 else 4294967296 - m := by
          unfold u32i; split_ifs <;> omega
        obtain ⟨r, hr, hrd⟩ := ofUInt32_spec (x := if m = 0 then 0 else 4294967296 - m) (by split_ifs <;> omega)
        refine ⟨r, by rw [hu, hr], ?_⟩
        convert hrd using 1
        split_ifs <;> omega
      · rw [if_neg hs, if_neg hs, if_neg (by omega)]
        exact ofUInt32_spec (by omega)
    obtain ⟨r, hr, hrd⟩ := hR
    obtain ⟨q', hq', hqd⟩ := returns_ofMagnitude hwq (by rw [hlq]; exact hl) (hsx _ (by rw [hvq, natAbs_unit_mul hs1]))
    exact ⟨q', r, by rw [hr, hq']; rfl, hqd, hrd⟩
  · simp only [hne1, hne2, and_self, if_false, and_false, false_and]
    by_cases hlt : xs.length < ys.length
    · have := val_lt_of_length hw1 hne2 ht2 hlt
      rw [if_pos hlt, tdiv_zero_of_lt (by rw [natAbs_unit_mul hs1, natAbs_unit_mul hs2]; exact this),
        tmod_self_of_lt (by rw [natAbs_unit_mul hs1, natAbs_unit_mul hs2]; exact this)]
      exact ⟨_, _, rfl, denotes_zero, ha⟩
    · rw [if_neg hlt]
      simp only at hl
      obtain ⟨q, r, hr, hlq, hwq, hvq, hlr, hwr, hvr⟩ := divideVecRem_spec hw1 hw2 hne2 ht2 (by omega) hl
      simp only [Res.ok_bind, hr]
      have : 0 < ys.length := List.length_pos_iff.2 hne2
      obtain ⟨q', hq', hqd⟩ := returns_ofMagnitude hwq (by omega) (hsx _ (by
        rw [hvq, natAbs_unit_mul hs1, natAbs_unit_mul hs2]))
      obtain ⟨r', hr', hrd⟩ := returns_ofMagnitude hwr (by omega) (neg := decide (s < 0))
        (z := (s * (val xs : Int)).tmod (t * (val ys : Int))) (by
          rw [tmod_natAbs, natAbs_unit_mul hs1, natAbs_unit_mul hs2, hvr]
          simp only [← hsn, decide_eq_true_eq])
      exact ⟨q', r', by simp [hr', hq'], hqd, hrd⟩

/-! ### sizes of results -/

theorem Denotes.natAbs_lt {b : BigInt} {z : Int} (h : b.Denotes z) :
    z.natAbs < 𝔹 ^ Max.max b.bits.length 1 := by
  by_cases hne : b.bits = []
  · rcases h.shape with ⟨rfl, h1, h2⟩ | ⟨s, ws, rfl, hs, hne', -, -, -, -⟩
    · simp; omega
    · exact absurd hne hne'
  · have h1 := h.lt_pow hne
    have h2 : 1 ≤ b.bits.length := List.length_pos_iff.2 hne
    rwa [Nat.max_eq_left h2]

theorem length_add_le {a b c : BigInt} {x y z : Int} (ha : a.Denotes x) (hb : b.Denotes y) (hc : c.Denotes z)
    (h : z.natAbs ≤ x.natAbs + y.natAbs) :
    c.bits.length ≤ Max.max (Max.max a.bits.length 1) b.bits.length + 1 := by
  apply hc.length_le
  have h1 := ha.natAbs_lt
  have h2 := hb.natAbs_lt
  generalize hn : Max.max (Max.max a.bits.length 1) b.bits.length = n
  have h3 : 𝔹 ^ Max.max a.bits.length 1 ≤ 𝔹 ^ n := Nat.pow_le_pow_right (by decide) (by omega)
  have h4 : 𝔹 ^ Max.max b.bits.length 1 ≤ 𝔹 ^ n := Nat.pow_le_pow_right (by decide) (by omega)
  rw [Nat.pow_succ]
  omega

theorem length_mul_le {a b c : BigInt} {x y z : Int} (ha : a.Denotes x) (hb : b.Denotes y) (hc : c.Denotes z)
    (h : z.natAbs ≤ x.natAbs * y.natAbs) :
    c.bits.length ≤ Max.max a.bits.length 1 + Max.max b.bits.length 1 := by
  apply hc.length_le
  rw [pow_add]
  exact lt_of_le_of_lt h (Nat.mul_lt_mul'' ha.natAbs_lt hb.natAbs_lt)

/-! ### division by zero -/

theorem div_zero_spec {a b : BigInt} {x : Int} (ha : a.Denotes x) (hb : b.Denotes 0)
    (hl : a.bits.length < 2147483648) : a.div b = .throw .divideByZero := by
  obtain rfl := hb.unique denotes_zero
  unfold div
  rw [ha.assertValid, hb.assertValid]
  rcases ha.shape with ⟨rfl, h1, h2⟩ | ⟨s, xs, rfl, hs1, hne1, hw1, ht1, hv1, rfl⟩
  · rfl
  · simp [hne1, zeroInt, cabs, divideWord, sizeInt_ok hl, divWordLoop_zero hne1]

theorem rem_zero_spec {a b : BigInt} {x : Int} (ha : a.Denotes x) (hb : b.Denotes 0)
    (hl : a.bits.length < 2147483648) : a.rem b = .throw .divideByZero := by
  obtain rfl := hb.unique denotes_zero
  unfold rem
  rw [ha.assertValid, hb.assertValid]
  rcases ha.shape with ⟨rfl, h1, h2⟩ | ⟨s, xs, rfl, hs1, hne1, hw1, ht1, hv1, rfl⟩
  · rfl
  · simp [hne1, zeroInt, cabs, remainderWord, sizeInt_ok hl, remWordLoop_zero hne1]

theorem divRem_zero_spec {a b : BigInt} {x : Int} (ha : a.Denotes x) (hb : b.Denotes 0)
    (hl : a.bits.length < 2147483648) : a.divRem b = .throw .divideByZero := by
  obtain rfl := hb.unique denotes_zero
  unfold divRem
  rw [ha.assertValid, hb.assertValid]
  rcases ha.shape with ⟨rfl, h1, h2⟩ | ⟨s, xs, rfl, hs1, hne1, hw1, ht1, hv1, rfl⟩
  · rfl
  · simp [hne1, zeroInt, cabs, divideWordRem, sizeInt_ok hl, divWordLoop_zero hne1]

end BigInt
end BigIntegerCpp
