import Verif.Lemmas.MulDiv
import Verif.Props.Samples
/-
C05, C06, C09–C13, C39: the four operations, division by zero, algebraic laws.
-/
namespace BigIntegerCpp
open Samples
variable [Cfg]

/-! ### C05, C06 addition and subtraction -/

theorem C05_add (a b : BigInt) (x y : Int) (ha : a.Denotes x) (hb : b.Denotes y) (fa : a.Fits) (fb : b.Fits) :
    Returns (a.add b) (x + y) := BigInt.add_spec ha hb fa fb

theorem C06_subtract (a b : BigInt) (x y : Int) (ha : a.Denotes x) (hb : b.Denotes y) (fa : a.Fits) (fb : b.Fits) :
    Returns (a.sub b) (x - y) := BigInt.sub_spec ha hb fa fb

example : Returns (neg3.add pos2) (-18446744103774322693 + 38654705667) ∧
    Returns (neg3.sub pos2) (-18446744103774322693 - 38654705667) :=
  ⟨C05_add _ _ _ _ neg3_denotes pos2_denotes neg3_fits pos2_fits,
   C06_subtract _ _ _ _ neg3_denotes pos2_denotes neg3_fits pos2_fits⟩

/-! ### C09 multiplication -/

/-- Exact at every size, hence on both sides of the Karatsuba thresholds and on squares. -/
theorem C09_multiply (a b : BigInt) (x y : Int) (ha : a.Denotes x) (hb : b.Denotes y)
    (hl : a.bits.length + b.bits.length < 2 ^ 31 - 1) : Returns (a.mul b) (x * y) := BigInt.mul_spec ha hb hl

example : Returns (neg3.mul pos2) (-18446744103774322693 * 38654705667) :=
  C09_multiply _ _ _ _ neg3_denotes pos2_denotes (by decide)
/-- A case above the Karatsuba threshold: 100-word operands. -/
example : BigInt.Denotes ⟨-1, List.replicate 100 7⟩ (-1 * (val (List.replicate 100 7) : Nat)) ∧
    (List.replicate 100 7).length + (List.replicate 100 7).length < 2 ^ 31 - 1 :=
  ⟨BigInt.denotes_big (.inr rfl) (by decide) (by decide) (by decide) (by decide +kernel) rfl, by decide⟩

/-! ### C10, C11 division and remainder -/

/-- Quotient truncated toward zero (`Int.tdiv`). -/
theorem C10_divide (a b : BigInt) (x y : Int) (ha : a.Denotes x) (hb : b.Denotes y) (hy : y ≠ 0) (fa : a.Fits) :
    Returns (a.div b) (x.tdiv y) := BigInt.div_spec ha hb hy (Nat.lt_succ_of_lt fa)

/-- The truncated quotient in elementary terms: the quotient of the magnitudes, negated when the
signs differ. -/
theorem C10_divide_magnitudes (a b : BigInt) (x y : Int) (ha : a.Denotes x) (hb : b.Denotes y) (hy : y ≠ 0)
    (fa : a.Fits) :
    Returns (a.div b) (if (x < 0) = (y < 0) then ((x.natAbs / y.natAbs : Nat) : Int)
      else -((x.natAbs / y.natAbs : Nat) : Int)) := by
  have h := C10_divide a b x y ha hb hy fa
  rw [tdiv_natAbs] at h
  rcases lt_or_ge x 0 with hx | hx <;> rcases lt_or_ge y 0 with hy' | hy' <;>
    simpa [hx, hy', not_lt.2] using h

/-- Remainder with the sign of the dividend (`Int.tmod`). -/
theorem C11_remainder (a b : BigInt) (x y : Int) (ha : a.Denotes x) (hb : b.Denotes y) (hy : y ≠ 0) (fa : a.Fits) :
    Returns (a.rem b) (x.tmod y) := BigInt.rem_spec ha hb hy (Nat.lt_succ_of_lt fa)

/-- `(a/b)*b + a%b == a` and `|a%b| < |b|`, and a non-zero remainder has the dividend's sign. -/
theorem C11_division_identity (a b : BigInt) (x y : Int) (ha : a.Denotes x) (hb : b.Denotes y) (hy : y ≠ 0)
    (fa : a.Fits) :
    ∃ q r, Returns (a.div b) q ∧ Returns (a.rem b) r ∧ q * y + r = x ∧ |r| < |y| ∧
      (r ≠ 0 → (r < 0 ↔ x < 0)) := by
  refine ⟨_, _, C10_divide a b x y ha hb hy fa, C11_remainder a b x y ha hb hy fa, ?_, ?_, ?_⟩
  · rw [Int.mul_comm]; exact Int.mul_tdiv_add_tmod x y
  · have hm : x.natAbs % y.natAbs < y.natAbs := Nat.mod_lt _ (by omega)
    rw [Int.abs_eq_natAbs, Int.abs_eq_natAbs, tmod_natAbs]
    generalize x.natAbs % y.natAbs = m at hm
    split_ifs <;> omega
  · rw [tmod_natAbs]
    generalize x.natAbs % y.natAbs = m
    split_ifs <;> omega

example : Returns (neg3.div pos2) ((-18446744103774322693 : Int).tdiv 38654705667) ∧
    Returns (neg3.rem pos2) ((-18446744103774322693 : Int).tmod 38654705667) :=
  ⟨C10_divide _ _ _ _ neg3_denotes pos2_denotes (by decide) neg3_fits,
   C11_remainder _ _ _ _ neg3_denotes pos2_denotes (by decide) neg3_fits⟩

/-! ### C12 division by zero -/

theorem C12_divide_by_zero (a b : BigInt) (x : Int) (ha : a.Denotes x) (hb : b.Denotes 0) (fa : a.Fits) :
    a.div b = .throw .divideByZero ∧ a.rem b = .throw .divideByZero ∧ a.divRem b = .throw .divideByZero :=
  ⟨BigInt.div_zero_spec ha hb (Nat.lt_succ_of_lt fa), BigInt.rem_zero_spec ha hb (Nat.lt_succ_of_lt fa),
   BigInt.divRem_zero_spec ha hb (Nat.lt_succ_of_lt fa)⟩
example : neg3.Denotes (-18446744103774322693) ∧ zeroInt.Denotes 0 ∧ neg3.Fits :=
  ⟨neg3_denotes, denotes_zero, neg3_fits⟩

/-! ### C13 div_rem agrees with / and % -/

/-- `div_rem` returns `a / b`, and stores `a % b` unless the dividend needs words, the divisor does
not, and the remainder is negative.  Missing from the full claim: exactly that last case, where the
claim is false, see `C13_wrong_remainder`. -/
theorem C13_div_rem_partial (a b : BigInt) (x y : Int) (ha : a.Denotes x) (hb : b.Denotes y) (hy : y ≠ 0)
    (fa : a.Fits) (hdom : ¬ (2 ^ 31 ≤ |x| ∧ |y| < 2 ^ 31 ∧ x.tmod y < 0)) :
    ∃ q r, a.divRem b = .ok (q, r) ∧ q.Denotes (x.tdiv y) ∧ r.Denotes (x.tmod y) := by
  obtain ⟨q, r, h, hq, hr⟩ := BigInt.divRem_spec ha hb hy (Nat.lt_succ_of_lt fa)
  refine ⟨q, r, h, hq, ?_⟩
  rw [BigInt.divRemRest, if_neg] at hr
  · exact hr
  · rintro ⟨h1, h2, h3⟩
    apply hdom
    refine ⟨?_, ?_, h3⟩
    · rcases ha.shape with ⟨rfl, -, -⟩ | ⟨s, xs, rfl, hs, -, -, -, hv, rfl⟩
      · exact absurd rfl h1
      · rw [Int.abs_eq_natAbs, natAbs_unit_mul hs]; omega
    · rcases hb.shape with ⟨rfl, h5, h6⟩ | ⟨s, xs, rfl, hs, hne, -, -, hv, rfl⟩
      · rw [abs_lt]; omega
      · exact absurd h2 hne

/-- In the excluded case `div_rem` still returns the right quotient but stores the remainder plus
`2^32`. -/
theorem C13_wrong_remainder (a b : BigInt) (x y : Int) (ha : a.Denotes x) (hb : b.Denotes y) (hy : y ≠ 0)
    (fa : a.Fits) (hx : 2 ^ 31 ≤ |x|) (hy' : |y| < 2 ^ 31) (hneg : x.tmod y < 0) :
    ∃ q r, a.divRem b = .ok (q, r) ∧ q.Denotes (x.tdiv y) ∧ r.Denotes (x.tmod y + 2 ^ 32) := by
  obtain ⟨q, r, h, hq, hr⟩ := BigInt.divRem_spec ha hb hy (Nat.lt_succ_of_lt fa)
  refine ⟨q, r, h, hq, ?_⟩
  rw [BigInt.divRemRest, if_pos] at hr
  · exact hr
  · refine ⟨?_, ?_, hneg⟩
    · rintro he
      rcases ha.shape with ⟨rfl, h5, h6⟩ | ⟨s, xs, rfl, hs, hne, -, -, hv, rfl⟩
      · rw [Int.abs_eq_natAbs] at hx; omega
      · exact hne he
    · rcases hb.shape with ⟨rfl, h5, h6⟩ | ⟨s, xs, rfl, hs, hne, -, -, hv, rfl⟩
      · rfl
      · rw [Int.abs_eq_natAbs, natAbs_unit_mul hs] at hy'; omega

/-- The claim "div_rem stores a % b" is false: `-2^32-3` divided by 10. -/
theorem C13_refuted :
    ∃ (a b : BigInt) (x y : Int), a.Denotes x ∧ b.Denotes y ∧ y ≠ 0 ∧ a.Fits ∧
      ∃ q r, a.divRem b = .ok (q, r) ∧ ¬ r.Denotes (x.tmod y) := by
  have ha : BigInt.Denotes ⟨-1, [3, 1]⟩ (-4294967299) :=
    BigInt.denotes_big (.inr rfl) (by decide) (by decide) (by decide) (by decide) (by decide)
  have hb : BigInt.Denotes ⟨10, []⟩ 10 := BigInt.denotes_small (by decide) (by decide)
  obtain ⟨q, r, h, -, hr⟩ := C13_wrong_remainder _ _ _ _ ha hb (by decide) (by decide) (by decide) (by decide) (by decide)
  refine ⟨_, _, _, _, ha, hb, by decide, by decide, q, r, h, fun h' => ?_⟩
  have := hr.2.symm.trans h'.2
  revert this; decide

example : neg3.Denotes (-18446744103774322693) ∧ pos2.Denotes 38654705667 ∧ neg3.Fits ∧
    ¬ ((2 : Int) ^ 31 ≤ |(-18446744103774322693 : Int)| ∧ |(38654705667 : Int)| < 2 ^ 31 ∧
      (-18446744103774322693 : Int).tmod 38654705667 < 0) :=
  ⟨neg3_denotes, pos2_denotes, neg3_fits, by decide⟩
example : neg3.Denotes (-18446744103774322693) ∧ small.Denotes (-42) ∧ (2 : Int) ^ 31 ≤ |(-18446744103774322693 : Int)| ∧
    |(-42 : Int)| < 2 ^ 31 ∧ (-18446744103774322693 : Int).tmod (-42) < 0 :=
  ⟨neg3_denotes, small_denotes, by decide, by decide, by decide⟩

/-! ### C39 ring and order laws, observed through `==` and `<=` -/

/-- Two calls that return the same integer return `==` (indeed identical) objects. -/
theorem returns_same {r s : Res BigInt} {z w : Int} (hr : Returns r z) (hs : Returns s w) (h : z = w) : r = s := by
  obtain ⟨a, rfl, ha⟩ := hr
  obtain ⟨b, rfl, hb⟩ := hs
  subst h
  rw [ha.unique hb]

theorem C39_add_comm (a b : BigInt) (ha : a.Valid) (hb : b.Valid) (fa : a.Fits) (fb : b.Fits) :
    a.add b = b.add a :=
  returns_same (C05_add a b _ _ ⟨ha, rfl⟩ ⟨hb, rfl⟩ fa fb) (C05_add b a _ _ ⟨hb, rfl⟩ ⟨ha, rfl⟩ fb fa) (Int.add_comm _ _)

theorem C39_mul_comm (a b : BigInt) (ha : a.Valid) (hb : b.Valid)
    (hl : a.bits.length + b.bits.length < 2 ^ 31 - 1) : a.mul b = b.mul a :=
  returns_same (C09_multiply a b _ _ ⟨ha, rfl⟩ ⟨hb, rfl⟩ hl)
    (C09_multiply b a _ _ ⟨hb, rfl⟩ ⟨ha, rfl⟩ (by omega)) (Int.mul_comm _ _)

/-- `(a + b) + c == a + (b + c)`. -/
theorem C39_add_assoc (a b c : BigInt) (ha : a.Valid) (hb : b.Valid) (hc : c.Valid)
    (fa : a.bits.length < 2 ^ 30) (fb : b.bits.length < 2 ^ 30) (fc : c.bits.length < 2 ^ 30) :
    ∃ s t u, a.add b = .ok s ∧ b.add c = .ok t ∧ s.add c = .ok u ∧ a.add t = .ok u := by
  obtain ⟨s, hs, ds⟩ := C05_add a b _ _ ⟨ha, rfl⟩ ⟨hb, rfl⟩ (by unfold BigInt.Fits; omega) (by unfold BigInt.Fits; omega)
  obtain ⟨t, ht, dt⟩ := C05_add b c _ _ ⟨hb, rfl⟩ ⟨hc, rfl⟩ (by unfold BigInt.Fits; omega) (by unfold BigInt.Fits; omega)
  have lens := BigInt.length_add_le ⟨ha, rfl⟩ ⟨hb, rfl⟩ ds (Int.natAbs_add_le _ _)
  have lent := BigInt.length_add_le ⟨hb, rfl⟩ ⟨hc, rfl⟩ dt (Int.natAbs_add_le _ _)
  have h1 := C05_add s c _ _ ds ⟨hc, rfl⟩ (by unfold BigInt.Fits; omega) (by unfold BigInt.Fits; omega)
  have h2 := C05_add a t _ _ ⟨ha, rfl⟩ dt (by unfold BigInt.Fits; omega) (by unfold BigInt.Fits; omega)
  have he := returns_same h1 h2 (Int.add_assoc _ _ _)
  obtain ⟨u, hu, -⟩ := h1
  exact ⟨s, t, u, hs, ht, hu, he ▸ hu⟩

/-- `(a * b) * c == a * (b * c)`. -/
theorem C39_mul_assoc (a b c : BigInt) (ha : a.Valid) (hb : b.Valid) (hc : c.Valid)
    (fa : a.bits.length < 2 ^ 28) (fb : b.bits.length < 2 ^ 28) (fc : c.bits.length < 2 ^ 28) :
    ∃ s t u, a.mul b = .ok s ∧ b.mul c = .ok t ∧ s.mul c = .ok u ∧ a.mul t = .ok u := by
  obtain ⟨s, hs, ds⟩ := C09_multiply a b _ _ ⟨ha, rfl⟩ ⟨hb, rfl⟩ (by omega)
  obtain ⟨t, ht, dt⟩ := C09_multiply b c _ _ ⟨hb, rfl⟩ ⟨hc, rfl⟩ (by omega)
  have lens := BigInt.length_mul_le ⟨ha, rfl⟩ ⟨hb, rfl⟩ ds (le_of_eq (Int.natAbs_mul _ _))
  have lent := BigInt.length_mul_le ⟨hb, rfl⟩ ⟨hc, rfl⟩ dt (le_of_eq (Int.natAbs_mul _ _))
  have h1 := C09_multiply s c _ _ ds ⟨hc, rfl⟩ (by omega)
  have h2 := C09_multiply a t _ _ ⟨ha, rfl⟩ dt (by omega)
  have he := returns_same h1 h2 (Int.mul_assoc _ _ _)
  obtain ⟨u, hu, -⟩ := h1
  exact ⟨s, t, u, hs, ht, hu, he ▸ hu⟩

/-- `a * (b + c) == a * b + a * c`. -/
theorem C39_distrib (a b c : BigInt) (ha : a.Valid) (hb : b.Valid) (hc : c.Valid)
    (fa : a.bits.length < 2 ^ 28) (fb : b.bits.length < 2 ^ 28) (fc : c.bits.length < 2 ^ 28) :
    ∃ s p q u, b.add c = .ok s ∧ a.mul b = .ok p ∧ a.mul c = .ok q ∧ a.mul s = .ok u ∧ p.add q = .ok u := by
  obtain ⟨s, hs, ds⟩ := C05_add b c _ _ ⟨hb, rfl⟩ ⟨hc, rfl⟩ (by unfold BigInt.Fits; omega) (by unfold BigInt.Fits; omega)
  obtain ⟨p, hp, dp⟩ := C09_multiply a b _ _ ⟨ha, rfl⟩ ⟨hb, rfl⟩ (by omega)
  obtain ⟨q, hq, dq⟩ := C09_multiply a c _ _ ⟨ha, rfl⟩ ⟨hc, rfl⟩ (by omega)
  have lens := BigInt.length_add_le ⟨hb, rfl⟩ ⟨hc, rfl⟩ ds (Int.natAbs_add_le _ _)
  have lenp := BigInt.length_mul_le ⟨ha, rfl⟩ ⟨hb, rfl⟩ dp (le_of_eq (Int.natAbs_mul _ _))
  have lenq := BigInt.length_mul_le ⟨ha, rfl⟩ ⟨hc, rfl⟩ dq (le_of_eq (Int.natAbs_mul _ _))
  have h1 := C09_multiply a s _ _ ⟨ha, rfl⟩ ds (by omega)
  have h2 := C05_add p q _ _ dp dq (by unfold BigInt.Fits; omega) (by unfold BigInt.Fits; omega)
  have he := returns_same h1 h2 (Int.mul_add _ _ _)
  obtain ⟨u, hu, -⟩ := h1
  exact ⟨s, p, q, u, hs, hp, hq, hu, he ▸ hu⟩

/-- `a <= b` implies `a + c <= b + c`. -/
theorem C39_add_mono (a b c : BigInt) (ha : a.Valid) (hb : b.Valid) (hc : c.Valid)
    (fa : a.bits.length < 2 ^ 30) (fb : b.bits.length < 2 ^ 30) (fc : c.bits.length < 2 ^ 30)
    (h : a.le b = .ok true) :
    ∃ s t, a.add c = .ok s ∧ b.add c = .ok t ∧ s.le t = .ok true := by
  obtain ⟨s, hs, ds⟩ := C05_add a c _ _ ⟨ha, rfl⟩ ⟨hc, rfl⟩ (by unfold BigInt.Fits; omega) (by unfold BigInt.Fits; omega)
  obtain ⟨t, ht, dt⟩ := C05_add b c _ _ ⟨hb, rfl⟩ ⟨hc, rfl⟩ (by unfold BigInt.Fits; omega) (by unfold BigInt.Fits; omega)
  have lens := BigInt.length_add_le ⟨ha, rfl⟩ ⟨hc, rfl⟩ ds (Int.natAbs_add_le _ _)
  have lent := BigInt.length_add_le ⟨hb, rfl⟩ ⟨hc, rfl⟩ dt (Int.natAbs_add_le _ _)
  rw [BigInt.le_spec ⟨ha, rfl⟩ ⟨hb, rfl⟩ (by omega) (by omega)] at h
  refine ⟨s, t, hs, ht, ?_⟩
  rw [BigInt.le_spec ds dt (by omega) (by omega)]
  simp only [Res.ok.injEq, decide_eq_true_eq] at h ⊢
  omega

/-- `a <= b` and `0 <= c` imply `a * c <= b * c`. -/
theorem C39_mul_mono (a b c : BigInt) (ha : a.Valid) (hb : b.Valid) (hc : c.Valid)
    (fa : a.bits.length < 2 ^ 28) (fb : b.bits.length < 2 ^ 28) (fc : c.bits.length < 2 ^ 28)
    (h : a.le b = .ok true) (h0 : zeroInt.le c = .ok true) :
    ∃ s t, a.mul c = .ok s ∧ b.mul c = .ok t ∧ s.le t = .ok true := by
  obtain ⟨s, hs, ds⟩ := C09_multiply a c _ _ ⟨ha, rfl⟩ ⟨hc, rfl⟩ (by omega)
  obtain ⟨t, ht, dt⟩ := C09_multiply b c _ _ ⟨hb, rfl⟩ ⟨hc, rfl⟩ (by omega)
  have lens := BigInt.length_mul_le ⟨ha, rfl⟩ ⟨hc, rfl⟩ ds (le_of_eq (Int.natAbs_mul _ _))
  have lent := BigInt.length_mul_le ⟨hb, rfl⟩ ⟨hc, rfl⟩ dt (le_of_eq (Int.natAbs_mul _ _))
  rw [BigInt.le_spec ⟨ha, rfl⟩ ⟨hb, rfl⟩ (by omega) (by omega)] at h
  rw [BigInt.le_spec denotes_zero ⟨hc, rfl⟩ (by decide) (by omega)] at h0
  refine ⟨s, t, hs, ht, ?_⟩
  rw [BigInt.le_spec ds dt (by omega) (by omega)]
  simp only [Res.ok.injEq, decide_eq_true_eq] at h h0 ⊢
  exact Int.mul_le_mul_of_nonneg_right h h0

example : neg3.Valid ∧ pos2.Valid ∧ small.Valid ∧ neg3.bits.length < 2 ^ 28 ∧ neg3.le pos2 = .ok true ∧
    zeroInt.le pos2 = .ok true :=
  ⟨neg3_denotes.1, pos2_denotes.1, small_denotes.1, by decide,
   BigInt.le_spec neg3_denotes pos2_denotes (by decide) (by decide),
   BigInt.le_spec denotes_zero pos2_denotes (by decide) (by decide)⟩

/-! ### instances of the remaining theorems -/

example : ∃ q r, Returns (neg3.div small) q ∧ Returns (neg3.rem small) r ∧ q * -42 + r = -18446744103774322693 ∧ |r| < |-42| ∧
    (r ≠ 0 → (r < 0 ↔ (-18446744103774322693 : Int) < 0)) :=
  C11_division_identity _ _ _ _ neg3_denotes small_denotes (by decide) neg3_fits
example : ∃ q r, neg3.divRem small = .ok (q, r) ∧ q.Denotes ((-18446744103774322693 : Int).tdiv (-42)) ∧
    r.Denotes ((-18446744103774322693 : Int).tmod (-42) + 2 ^ 32) :=
  C13_wrong_remainder _ _ _ _ neg3_denotes small_denotes (by decide) neg3_fits (by decide) (by decide) (by decide)
example : ∃ q r, neg3.divRem pos2 = .ok (q, r) ∧ q.Denotes ((-18446744103774322693 : Int).tdiv 38654705667) ∧
    r.Denotes ((-18446744103774322693 : Int).tmod 38654705667) :=
  C13_div_rem_partial _ _ _ _ neg3_denotes pos2_denotes (by decide) neg3_fits (by decide)
example : ∃ s p q u, pos2.add small = .ok s ∧ neg3.mul pos2 = .ok p ∧ neg3.mul small = .ok q ∧ neg3.mul s = .ok u ∧ p.add q = .ok u :=
  C39_distrib _ _ _ neg3_denotes.1 pos2_denotes.1 small_denotes.1 (by decide) (by decide) (by decide)

end BigIntegerCpp
