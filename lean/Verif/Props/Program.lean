import Verif.Lemmas.Program
import Verif.Lemmas.Fault
import Verif.Lemmas.Actual
import Verif.Props.Samples
import Mathlib.Data.Nat.Factorial.Basic
/-
C14, C40, C41, C61: programs over `BigInteger` objects, aliased `div_rem`, exceptions, debug and release
builds.  The integer semantics of programs is in ProgramSpec.lean.
-/
namespace BigIntegerCpp
open Samples
variable [Cfg]

/-! ### C14 div_rem with an aliased out-parameter

`divRemAt i j k` is `div_rem(oᵢ, oⱼ, oₖ)` on the objects with those numbers.  It returns the
quotient and changes the store. -/

/-- `remainder` is neither operand (which may be one object): the quotient is right and only
`remainder` changes.  What is stored there is C13. -/
theorem C14_distinct (σ : Store) (i j k : Nat) (x y : Int) (ha : (σ i).Denotes x) (hb : (σ j).Denotes y) (hy : y ≠ 0)
    (fa : (σ i).Fits) (hi : i ≠ k) (hj : j ≠ k) :
    ∃ q r, divRemAt i j k σ = (.ok q, σ.set k r) ∧ q.Denotes (x.tdiv y) ∧
      r.Denotes (if 2 ^ 31 ≤ |x| ∧ |y| < 2 ^ 31 ∧ x.tmod y < 0 then x.tmod y + 2 ^ 32 else x.tmod y) :=
  divRemAt_distinct ha hb hy (Nat.lt_succ_of_lt fa) hi hj

/-- `div_rem(a, b, a)`: the value returned is `quotientOverDividend` (ProgramSpec.lean), which is
zero if both operands are in the `int` range and has the wrong sign for many negative dividends. -/
theorem C14_over_dividend (σ : Store) (i j : Nat) (x y : Int) (ha : (σ i).Denotes x) (hb : (σ j).Denotes y) (hy : y ≠ 0)
    (fa : (σ i).Fits) (hij : i ≠ j) :
    ∃ q r, divRemAt i j i σ = (.ok q, σ.set i r) ∧ q.Denotes (quotientOverDividend x y) ∧
      r.Denotes (if 2 ^ 31 ≤ |x| ∧ |y| < 2 ^ 31 ∧ x.tmod y < 0 then x.tmod y + 2 ^ 32 else x.tmod y) :=
  divRemAt_over_dividend ha hb hy (Nat.lt_succ_of_lt fa) hij

/-- `div_rem(a, b, b)` when an operand is outside the `int` range: the value returned is
`quotientOverDivisor`, which ignores one or both signs. -/
theorem C14_over_divisor (σ : Store) (i j : Nat) (x y : Int) (ha : (σ i).Denotes x) (hb : (σ j).Denotes y) (hy : y ≠ 0)
    (fa : (σ i).Fits) (hij : i ≠ j) (h : 2 ^ 31 ≤ |x| ∨ 2 ^ 31 ≤ |y|) :
    ∃ q r, divRemAt i j j σ = (.ok q, σ.set j r) ∧ q.Denotes (quotientOverDivisor x y) ∧
      r.Denotes (if 2 ^ 31 ≤ |x| ∧ |y| < 2 ^ 31 ∧ x.tmod y < 0 then x.tmod y + 2 ^ 32 else x.tmod y) :=
  divRemAt_over_divisor ha hb hy (Nat.lt_succ_of_lt fa) hij (by rw [Int.abs_eq_natAbs, Int.abs_eq_natAbs] at h; omega)

/-- `div_rem(a, b, b)` with both operands in the `int` range: an `int` division by zero if `b`
divides `a`, otherwise `a / (a % b)`. -/
theorem C14_over_divisor_small (σ : Store) (i j : Nat) (x y : Int) (ha : (σ i).Denotes x) (hb : (σ j).Denotes y) (hy : y ≠ 0)
    (hij : i ≠ j) (hx : |x| < 2 ^ 31) (hy' : |y| < 2 ^ 31) :
    (y ∣ x → ∃ σ', divRemAt i j j σ = (.ub .divByZero, σ')) ∧
    (¬ y ∣ x → ∃ q r, divRemAt i j j σ = (.ok q, σ.set j r) ∧ q.Denotes (x.tdiv (x.tmod y)) ∧ r.Denotes (x.tmod y)) :=
  divRemAt_over_divisor_small ha hb hy hij (by rw [Int.abs_eq_natAbs] at hx hy'; omega)

/-- `div_rem(a, a, a)`. -/
theorem C14_self (σ : Store) (i : Nat) (x : Int) (ha : (σ i).Denotes x) (hx : x ≠ 0) (fa : (σ i).Fits) :
    (|x| < 2 ^ 31 → ∃ σ', divRemAt i i i σ = (.ub .divByZero, σ')) ∧
    (2 ^ 31 ≤ |x| → ∃ q r, divRemAt i i i σ = (.ok q, σ.set i r) ∧ q.Denotes 1 ∧ r.Denotes 0) := by
  have := divRemAt_self ha hx (Nat.lt_succ_of_lt fa)
  rw [Int.abs_eq_natAbs]
  exact ⟨fun h => this.1 (by omega), fun h => this.2 (by omega)⟩

/-- C14, partial: the full statement has no hypotheses on signs and sizes.  Missing: negative
operands, and operands that are both in the `int` range; there it fails, see the theorems around. -/
theorem C14_div_rem_partial (σ : Store) (i j k : Nat) (x y : Int) (ha : (σ i).Denotes x) (hb : (σ j).Denotes y)
    (fa : (σ i).Fits) (hij : i ≠ j) (hx : 0 ≤ x) (hy : 0 < y) (h : 2 ^ 31 ≤ x ∨ 2 ^ 31 ≤ y) :
    ∃ q r, divRemAt i j k σ = (.ok q, σ.set k r) ∧ q.Denotes (x / y) ∧ r.Denotes (x % y) := by
  have e1 : x.tdiv y = x / y := Int.tdiv_eq_ediv_of_nonneg hx
  have e2 : x.tmod y = x % y := Int.tmod_eq_emod_of_nonneg hx
  have e3 : 0 ≤ x.tmod y := Int.tmod_nonneg y hx
  have e4 : |x| = x := abs_of_nonneg hx
  have e5 : |y| = y := abs_of_pos hy
  have hc : ¬ (2 ^ 31 ≤ |x| ∧ |y| < 2 ^ 31 ∧ x.tmod y < 0) := fun h => by omega
  by_cases hi : i = k
  · subst hi
    obtain ⟨q, r, h1, h2, h3⟩ := C14_over_dividend σ i j x y ha hb (by omega) fa hij
    rw [if_neg hc, e2] at h3
    refine ⟨q, r, h1, ?_, h3⟩
    unfold quotientOverDividend at h2
    rwa [if_neg (by rw [e4, e5]; omega), if_neg (by omega), e1] at h2
  · by_cases hj : j = k
    · subst hj
      obtain ⟨q, r, h1, h2, h3⟩ := C14_over_divisor σ i j x y ha hb (by omega) fa hij (by rwa [e4, e5])
      rw [if_neg hc, e2] at h3
      refine ⟨q, r, h1, ?_, h3⟩
      unfold quotientOverDivisor at h2
      rwa [e4, e5, e1, ite_self] at h2
    · obtain ⟨q, r, h1, h2, h3⟩ := C14_distinct σ i j k x y ha hb (by omega) fa hi hj
      rw [if_neg hc, e2] at h3
      exact ⟨q, r, h1, e1 ▸ h2, h3⟩

/-- Object 0 is `7`, every other one `2`. -/
def sevenTwo : Store := fun i => if i = 0 then ⟨7, []⟩ else ⟨2, []⟩

omit [Cfg] in
private theorem tdiv_eq_zero {x y : Int} (hy : y ≠ 0) : x.tdiv y = 0 ↔ |x| < |y| := by
  rw [← Int.natAbs_eq_zero, Int.natAbs_tdiv, show x.natAbs.div y.natAbs = x.natAbs / y.natAbs from rfl, Nat.div_eq_zero_iff,
    Int.abs_eq_natAbs, Int.abs_eq_natAbs]
  omega

/-- `div_rem(a, b, a)` returns the quotient exactly outside these cases: both operands `int`-sized
with a quotient other than 0; a negative dividend, with an `int`-sized divisor or without remainder. -/
theorem C14_over_dividend_exact_iff (σ : Store) (i j : Nat) (x y : Int) (ha : (σ i).Denotes x) (hb : (σ j).Denotes y) (hy : y ≠ 0)
    (fa : (σ i).Fits) (hij : i ≠ j) :
    Returns (divRemAt i j i σ).1 (x.tdiv y) ↔
      ¬ (if |x| < 2 ^ 31 ∧ |y| < 2 ^ 31 then |y| ≤ |x| else x < 0 ∧ (|y| < 2 ^ 31 ∨ y ∣ x)) := by
  obtain ⟨q, r, h1, h2, -⟩ := C14_over_dividend σ i j x y ha hb hy fa hij
  have key : Returns (divRemAt i j i σ).1 (x.tdiv y) ↔ quotientOverDividend x y = x.tdiv y := by
    rw [h1]
    refine ⟨?_, fun h => ⟨q, rfl, h ▸ h2⟩⟩
    rintro ⟨q', e, h⟩
    rw [← Res.ok.inj e] at h
    exact h2.2.symm.trans h.2
  rw [key]
  have z := tdiv_eq_zero (x := x) hy
  unfold quotientOverDividend
  by_cases c1 : |x| < 2 ^ 31 ∧ |y| < 2 ^ 31
  · rw [if_pos c1, if_pos c1]; omega
  · rw [if_neg c1, if_neg c1]
    by_cases c2 : x < 0 ∧ (|y| < 2 ^ 31 ∨ y ∣ x)
    · rw [if_pos c2]
      refine ⟨fun h => ?_, fun h => absurd c2 h⟩
      have h3 := z.1 (by omega)
      rcases c2.2 with h | h
      · exact absurd ⟨lt_trans h3 h, h⟩ c1
      · have := Int.natAbs_le_of_dvd_ne_zero h (by omega)
        rw [Int.abs_eq_natAbs, Int.abs_eq_natAbs] at h3
        omega
    · rw [if_neg c2]; exact ⟨fun _ => c2, fun _ => rfl⟩

omit [Cfg] in
private theorem tdiv_tmod_ne {x y : Int} (hy : ¬ y ∣ x) : x.tdiv (x.tmod y) ≠ x.tdiv y := by
  intro h
  have e := congrArg Int.natAbs h
  rw [Int.natAbs_tdiv, Int.natAbs_tdiv, Int.natAbs_tmod] at e
  change x.natAbs / (x.natAbs % y.natAbs) = x.natAbs / y.natAbs at e
  have hr : x.natAbs % y.natAbs ≠ 0 := fun h => hy (Int.natAbs_dvd_natAbs.1 (Nat.dvd_of_mod_eq_zero h))
  generalize x.natAbs = X at *
  generalize y.natAbs = Y at *
  rcases Nat.eq_zero_or_pos Y with rfl | hY
  · rw [Nat.mod_zero] at hr e
    rw [Nat.div_self (by omega), Nat.div_zero] at e
    omega
  · have h1 := Nat.mod_lt X hY
    have h2 := Nat.div_add_mod X Y
    have h3 := Nat.lt_mul_div_succ X (show 0 < X % Y by omega)
    rw [e] at h3
    generalize X % Y = R at *
    generalize X / Y = Q at *
    have h4 : R * Q ≤ Y * Q := Nat.mul_le_mul_right _ (le_of_lt h1)
    rw [mul_add, mul_one] at h3
    omega

/-- `div_rem(a, b, b)` returns the quotient exactly if one of the operands is not `int`-sized and: if
`b` is, or divides `a`, then `b` is positive or `a` is 0; if not, the signs agree or `a / b` is 0. -/
theorem C14_over_divisor_exact_iff (σ : Store) (i j : Nat) (x y : Int) (ha : (σ i).Denotes x) (hb : (σ j).Denotes y) (hy : y ≠ 0)
    (fa : (σ i).Fits) (hij : i ≠ j) :
    Returns (divRemAt i j j σ).1 (x.tdiv y) ↔ ¬ (|x| < 2 ^ 31 ∧ |y| < 2 ^ 31) ∧
      (if |y| < 2 ^ 31 ∨ y ∣ x then 0 < y ∨ x = 0 else (0 < x ↔ 0 < y) ∨ |x| < |y|) := by
  by_cases c1 : |x| < 2 ^ 31 ∧ |y| < 2 ^ 31
  · refine ⟨?_, fun h => absurd c1 h.1⟩
    obtain ⟨h1, h2⟩ := C14_over_divisor_small σ i j x y ha hb hy hij c1.1 c1.2
    rintro ⟨q', e, h⟩
    exfalso
    by_cases hd : y ∣ x
    · obtain ⟨σ', h3⟩ := h1 hd
      rw [h3] at e
      exact nomatch e
    · obtain ⟨q, r, h3, h4, -⟩ := h2 hd
      rw [h3] at e
      rw [← Res.ok.inj e] at h
      exact tdiv_tmod_ne hd (h4.2.symm.trans h.2)
  · obtain ⟨q, r, h1, h2, -⟩ := C14_over_divisor σ i j x y ha hb hy fa hij (by omega)
    have key : Returns (divRemAt i j j σ).1 (x.tdiv y) ↔ quotientOverDivisor x y = x.tdiv y := by
      rw [h1]
      refine ⟨?_, fun h => ⟨q, rfl, h ▸ h2⟩⟩
      rintro ⟨q', e, h⟩
      rw [← Res.ok.inj e] at h
      exact h2.2.symm.trans h.2
    rw [key, and_iff_right c1]
    have z := tdiv_eq_zero (x := x) hy
    unfold quotientOverDivisor
    by_cases c2 : |y| < 2 ^ 31 ∨ y ∣ x
    · rw [if_pos c2, if_pos c2]
      rcases lt_or_gt_of_ne hy with hn | hp
      · rw [abs_of_neg hn, Int.tdiv_neg]
        constructor
        · intro h
          have h3 := z.1 (by omega)
          rcases c2 with h4 | h4
          · exact absurd ⟨lt_trans h3 h4, h4⟩ c1
          · by_contra hc
            have := Int.natAbs_le_of_dvd_ne_zero h4 (by omega)
            rw [Int.abs_eq_natAbs, Int.abs_eq_natAbs] at h3
            omega
        · rintro (h | rfl)
          · omega
          · rw [Int.zero_tdiv]; rfl
      · rw [abs_of_pos hp]; exact ⟨fun _ => .inl hp, fun _ => rfl⟩
    · rw [if_neg c2, if_neg c2]
      have hx : x ≠ 0 := by rintro rfl; exact c2 (.inr (dvd_zero _))
      have e1 : |x| / |y| = |x|.tdiv |y| := (Int.tdiv_eq_ediv_of_nonneg (abs_nonneg _)).symm
      rw [e1]
      rcases lt_or_gt_of_ne hy with hn | hp <;> rcases lt_or_gt_of_ne hx with hn' | hp'
      · rw [abs_of_neg hn, abs_of_neg hn', Int.tdiv_neg, Int.neg_tdiv, neg_neg]
        exact ⟨fun _ => .inl (by omega), fun _ => rfl⟩
      · rw [abs_of_neg hn] at z ⊢
        rw [abs_of_pos hp'] at z ⊢
        rw [Int.tdiv_neg]
        omega
      · rw [abs_of_neg hn'] at z ⊢
        rw [abs_of_pos hp] at z ⊢
        rw [Int.neg_tdiv]
        omega
      · rw [abs_of_pos hp, abs_of_pos hp']
        exact ⟨fun _ => .inl (by omega), fun _ => rfl⟩

/-- `div_rem(a, a, a)` returns 1 exactly if the object is not `int`-sized. -/
theorem C14_self_exact_iff (σ : Store) (i : Nat) (x : Int) (ha : (σ i).Denotes x) (hx : x ≠ 0) (fa : (σ i).Fits) :
    Returns (divRemAt i i i σ).1 1 ↔ 2 ^ 31 ≤ |x| := by
  obtain ⟨h1, h2⟩ := C14_self σ i x ha hx fa
  constructor
  · rintro ⟨q, e, -⟩
    by_contra c
    obtain ⟨σ', h⟩ := h1 (by omega)
    rw [h] at e
    exact nomatch e
  · intro h
    obtain ⟨q, r, h3, h4, -⟩ := h2 h
    exact ⟨q, by rw [h3], h4⟩

/-- C14 is false of the code: `a = 7; b = 2; div_rem(a, b, a)` returns 0, not 3. -/
theorem C14_refuted : ¬ ∀ (σ : Store) (i j k : Nat) (x y : Int), (σ i).Denotes x → (σ j).Denotes y → y ≠ 0 →
    (k = i ∨ k = j) → Returns (divRemAt i j k σ).1 (x.tdiv y) := by
  intro h
  have h7 : (sevenTwo 0).Denotes 7 := BigInt.denotes_small (by decide) (by decide)
  have h2 : (sevenTwo 1).Denotes 2 := BigInt.denotes_small (by decide) (by decide)
  obtain ⟨q, h3, h4⟩ := h sevenTwo 0 1 0 7 2 h7 h2 (by decide) (.inl rfl)
  obtain ⟨q', r, h5, h6, -⟩ := C14_over_dividend sevenTwo 0 1 7 2 h7 h2 (by decide) (by decide) (by decide)
  rw [h5] at h3
  obtain rfl := Res.ok.inj h3
  exact absurd (h4.2.symm.trans h6.2) (by decide)

example : Returns (divRemAt 0 1 0 (fun i => if i = 0 then pos2 else small)).1 ((38654705667 : Int).tdiv (-42)) :=
  (C14_over_dividend_exact_iff _ 0 1 38654705667 (-42) pos2_denotes small_denotes (by decide) pos2_fits (by decide)).2 (by decide)
example : ¬ Returns (divRemAt 0 1 1 (fun i => if i = 0 then pos2 else small)).1 ((38654705667 : Int).tdiv (-42)) := fun h =>
  absurd ((C14_over_divisor_exact_iff _ 0 1 38654705667 (-42) pos2_denotes small_denotes (by decide) pos2_fits (by decide)).1 h) (by decide)
example : Returns (divRemAt 0 1 1 (fun i => if i = 0 then small else pos2)).1 ((-42 : Int).tdiv 38654705667) :=
  (C14_over_divisor_exact_iff _ 0 1 (-42) 38654705667 small_denotes pos2_denotes (by decide) small_fits (by decide)).2 (by decide)
example : Returns (divRemAt 0 0 0 (fun _ => neg3)).1 1 := (C14_self_exact_iff _ 0 _ neg3_denotes (by decide) neg3_fits).2 (by decide)
example : ∃ q r, divRemAt 0 1 0 (fun i => if i = 0 then pos2 else small) = (.ok q, Store.set (fun i => if i = 0 then pos2 else small) 0 r) ∧
    q.Denotes (-920350134) ∧ r.Denotes 39 :=
  C14_over_dividend _ 0 1 38654705667 (-42) pos2_denotes small_denotes (by decide) pos2_fits (by decide)
example : ∃ q r, divRemAt 0 1 1 (fun i => if i = 0 then neg3 else pos2) = (.ok q, Store.set (fun i => if i = 0 then neg3 else pos2) 1 r) ∧
    q.Denotes 477218589 ∧ r.Denotes (-7158278830) :=
  C14_over_divisor _ 0 1 (-18446744103774322693) 38654705667 neg3_denotes pos2_denotes (by decide) neg3_fits (by decide) (by decide)
example : (∃ σ', divRemAt 0 1 1 (fun i => if i = 0 then ⟨6, []⟩ else ⟨3, []⟩) = (.ub .divByZero, σ')) :=
  (C14_over_divisor_small (fun i => if i = 0 then ⟨6, []⟩ else ⟨3, []⟩) 0 1 6 3 (BigInt.denotes_small (by decide) (by decide))
    (BigInt.denotes_small (by decide) (by decide)) (by decide) (by decide) (by decide) (by decide)).1 (by decide)

/-! ### C40 programs over variables behave like integers -/

/-- C40, partial (missing: the statements that hit the faults of C13, C14 and C22, and construction
from `INT64_MIN`): a program over
objects does what it does over integers, whatever objects its statements share: it ends in the same
way (normally or with the same exception), with every object showing the integer it should.  `Runs`
says what the integer program does, and asks that its values stay below `2^(2^31 - 32)` and that its
statements avoid those faults. -/
theorem C40_program_partial (p : Prog) (ρ ρ' : IntStore) (o : Option Exn) (h : Runs p ρ o ρ') (σ : Store) (hσ : σ.Shows ρ) :
    ∃ n σ', σ'.Shows ρ' ∧ ∀ fuel, n ≤ fuel → p.exec fuel σ = (endsWith o, σ') := h.exec hσ

/-- C40 without excluded statements: what every program really does, as long as its values stay in
range.  `Does` (ActualSpec.lean) describes the run in terms of integers, known faults included; in
particular it tells which programs run into undefined behaviour. -/
theorem C40_actual (p : Prog) (ρ ρ' : IntStore) (o : Ending) (h : Does p ρ o ρ') (σ : Store) (hσ : σ.Shows ρ) :
    ∃ n r σ', o.Matches ρ' r σ' ∧ ∀ fuel, n ≤ fuel → p.exec fuel σ = (r, σ') := h.exec hσ

omit [Cfg] in
/-- On programs clear of the known faults this is what they should do. -/
theorem C40_actual_is_intended (p : Prog) (ρ ρ' : IntStore) (o : Option Exn) (h : Runs p ρ o ρ') : Does p ρ (ending o) ρ' := h.does

/-- The converse: whenever a program ends, the integers say how, unless a value left the range on
the way. -/
theorem C40_complete (p : Prog) (hp : p.Literals) (ρ : IntStore) (hr : ∀ i, InRange (ρ i)) (σ : Store) (hσ : σ.Shows ρ)
    (fuel : Nat) (r : Res Unit) (σ' : Store) (h : p.exec fuel σ = (r, σ')) (hd : r ≠ .diverge) :
    Leaves p ρ ∨ ∃ o ρ', Does p ρ o ρ' ∧ o.Matches ρ' r σ' := Does.complete fuel hp hr hσ h hd

/-- A program whose values stay in range runs forever exactly if the integers do. -/
theorem C40_runs_forever_iff (p : Prog) (hp : p.Literals) (ρ : IntStore) (hr : ∀ i, InRange (ρ i)) (hl : ¬ Leaves p ρ)
    (σ : Store) (hσ : σ.Shows ρ) : (∀ fuel, (p.exec fuel σ).1 = .diverge) ↔ ¬ ∃ o ρ', Does p ρ o ρ' := by
  constructor
  · rintro h ⟨o, ρ', h1⟩
    obtain ⟨n, r, σ', h2, h3⟩ := h1.exec hσ
    have h4 := h n
    rw [h3 n le_rfl] at h4
    dsimp only at h4
    subst h4
    rcases h2.cases with ⟨-, h, -⟩ | ⟨_, -, h, -⟩ | ⟨_, -, h⟩ <;> cases h
  · intro h fuel
    by_contra hd
    rcases Does.complete fuel hp hr hσ rfl hd with h1 | ⟨o, ρ', h1, -⟩
    · exact hl h1
    · exact h ⟨o, ρ', h1⟩

/-- `while (v₀ < v₁) {}` with `v₀ = 1`, `v₁ = 2`. -/
example (fuel : Nat) : ((Prog.whileDo (.rel .lt 0 1) .skip).exec fuel (fun i => if i = 0 then ⟨1, []⟩ else ⟨2, []⟩)).1 = .diverge := by
  have h1 : ∀ {p ρ o ρ'}, Does p ρ o ρ' → p = .whileDo (.rel .lt 0 1) .skip → ¬ ρ 0 < ρ 1 := by
    intro p ρ o ρ' h
    induction h with
    | whileTrue c p ρ ρ' ρ'' o hr hlt hd _ _ ih =>
      intro e
      cases e
      cases hd
      exact ih rfl
    | whileEnd c p ρ ρ' o hr hlt hd ho _ => intro e; cases e; cases hd; exact absurd rfl ho
    | whileFalse c p ρ hr hlt => intro e; cases e; exact hlt
    | _ => exact nofun
  have h2 : ∀ {p ρ}, Leaves p ρ → p = .whileDo (.rel .lt 0 1) .skip → False := by
    intro p ρ h
    induction h with
    | body c p ρ hlt hl _ => intro e; cases e; cases hl
    | again c p ρ ρ' hlt hd _ ih => exact ih
    | _ => exact nofun
  refine (C40_runs_forever_iff (.whileDo (.rel .lt 0 1) .skip) trivial (fun i => if i = 0 then 1 else 2) (fun i => inRange_small (by split_ifs <;> decide))
    (fun h => h2 h rfl) _ (fun i => ?_)).2 (fun ⟨o, ρ', h⟩ => h1 h rfl (by decide)) fuel
  by_cases h : i = 0
  · simp only [h, if_true]; exact BigInt.denotes_small (by decide) (by decide)
  · simp only [h, if_false]; exact BigInt.denotes_small (by decide) (by decide)

/-- C40 as stated is false: `v₀ >>= 32` takes `-0xFFFFFFFF00000001` to 0, not to `-2^32`. -/
theorem C40_refuted : ∃ (p : Prog) (ρ : IntStore) (σ σ' : Store), σ.Shows ρ ∧ (∀ i, |ρ i| < 2 ^ 64) ∧
    (∀ fuel, 1 ≤ fuel → p.exec fuel σ = (.ok (), σ')) ∧ p = .stmt (.shr 0 32) ∧ ρ 0 / 2 ^ 32 = -2 ^ 32 ∧ (σ' 0).Denotes 0 := by
  have hd : BigInt.Denotes ⟨-1, [1, 4294967295]⟩ (-18446744069414584321) :=
    BigInt.denotes_big (.inr rfl) (by decide) (by decide) (by decide) (by decide) (by decide)
  obtain ⟨b, h1, h2⟩ := BigInt.shr_misfire hd (n := 32) (by decide) ⟨by decide, by decide, 1, by decide, by decide, by decide⟩
  refine ⟨_, fun _ => -18446744069414584321, fun _ => ⟨-1, [1, 4294967295]⟩, Store.set (fun _ => ⟨-1, [1, 4294967295]⟩) 0 b,
    fun _ => hd, fun _ => by show |(-18446744069414584321 : Int)| < 2 ^ 64; decide, fun fuel hf => ?_, rfl, by decide, h2⟩
  obtain ⟨f, rfl⟩ : ∃ f, fuel = f + 1 := ⟨fuel - 1, by omega⟩
  show (do Cmd.write 0 (← Cmd.lift (BigInt.shr ⟨-1, [1, 4294967295]⟩ 32)) : Cmd Unit) _ = _
  rw [h1]
  rfl

/-! ### C61 postfix operators in programs -/

/-- After `z = x++;`, with `z` the same object as `x` or another one, `z == x`: the old value is nowhere.
In particular `x = x++;` adds one to `x`, which with the built-in operator it does not. -/
theorem C61_program (z x : Nat) (ρ : IntStore) (hr : ∀ i, InRange (ρ i)) (hx : InRange (ρ x + 1)) (hy : InRange (ρ x - 1))
    (σ : Store) (hσ : σ.Shows ρ) :
    (∃ σ', (Stmt.postInc z x).exec σ = (.ok (), σ') ∧ (σ' z).Denotes (ρ x + 1) ∧ (σ' x).Denotes (ρ x + 1) ∧
      ∀ i, i ≠ x → i ≠ z → (σ' i).Denotes (ρ i)) ∧
    (∃ σ', (Stmt.postDec z x).exec σ = (.ok (), σ') ∧ (σ' z).Denotes (ρ x - 1) ∧ (σ' x).Denotes (ρ x - 1) ∧
      ∀ i, i ≠ x → i ≠ z → (σ' i).Denotes (ρ i)) := by
  constructor
  · have hr' : ∀ i, InRange (((Stmt.postInc z x).actual ρ).2 i) := by
      intro i
      show InRange (((ρ.set x (ρ x + 1)).set z (ρ x + 1)) i)
      unfold IntStore.set
      split_ifs <;> first | exact hx | exact hr i
    obtain ⟨r, σ', h1, rfl, h2⟩ := Stmt.exec_actual (.postInc z x) hσ hr trivial hr'
    have h3 : ∀ i, (σ' i).Denotes (((ρ.set x (ρ x + 1)).set z (ρ x + 1)) i) := h2
    refine ⟨σ', h1, by simpa [IntStore.set] using h3 z, ?_, fun i hi hz => by simpa [IntStore.set, hi, hz] using h3 i⟩
    have := h3 x
    unfold IntStore.set at this
    by_cases e : x = z <;> simpa [e] using this
  · have hr' : ∀ i, InRange (((Stmt.postDec z x).actual ρ).2 i) := by
      intro i
      show InRange (((ρ.set x (ρ x - 1)).set z (ρ x - 1)) i)
      unfold IntStore.set
      split_ifs <;> first | exact hy | exact hr i
    obtain ⟨r, σ', h1, rfl, h2⟩ := Stmt.exec_actual (.postDec z x) hσ hr trivial hr'
    have h3 : ∀ i, (σ' i).Denotes (((ρ.set x (ρ x - 1)).set z (ρ x - 1)) i) := h2
    refine ⟨σ', h1, by simpa [IntStore.set] using h3 z, ?_, fun i hi hz => by simpa [IntStore.set, hi, hz] using h3 i⟩
    have := h3 x
    unfold IntStore.set at this
    by_cases e : x = z <;> simpa [e] using this
example : ∃ σ', (Stmt.postInc 0 0).exec (fun _ => ⟨5, []⟩) = (.ok (), σ') ∧ (σ' 0).Denotes 6 := by
  obtain ⟨σ', h1, h2, -, -⟩ := (C61_program 0 0 (fun _ => 5) (fun _ => inRange_small (by decide)) (inRange_small (by decide))
    (inRange_small (by decide)) (fun _ => ⟨5, []⟩) (fun _ => BigInt.denotes_small (by decide) (by decide))).1
  exact ⟨σ', h1, h2⟩

omit [Cfg] in
/-- `div_rem(v₀, v₁, v₁)` on 6 and 3, in a `try`: undefined, and the `try` does not help. -/
example : Does (.attempt (.stmt (.divRem 2 0 1 1))) (fun i => if i = 0 then 6 else 3) .undefined (fun i => if i = 0 then 6 else 3) := by
  have hr : ∀ i : Nat, InRange (if i = 0 then 6 else 3) := fun i => inRange_small (by split_ifs <;> decide)
  have h : Stmt.actual (.divRem 2 0 1 1) (fun i => if i = 0 then 6 else 3) = (.undefined, fun i => if i = 0 then 6 else 3) := by
    unfold Stmt.actual
    dsimp only
    rw [if_neg (by decide)]
    unfold divRemActual
    dsimp only
    rw [if_neg (by decide), if_pos rfl, if_pos (by decide), if_pos (by decide)]
  refine .attemptUndefined _ _ _ ?_
  have := Does.stmt (.divRem 2 0 1 1) (fun i => if i = 0 then 6 else 3) hr trivial (by rw [h]; exact hr)
  rwa [h] at this

/-- C40: a statement that throws leaves every object unchanged, in any store at all. -/
theorem C40_throw_unchanged (s : Stmt) (σ σ' : Store) (e : Exn) (h : s.exec σ = (.throw e, σ')) : σ' = σ :=
  s.exec_clean σ e σ' h

/-- The result does not depend on the bound on the depth of the execution, once it is reached. -/
theorem C40_bound_irrelevant (p : Prog) (n m : Nat) (σ σ' : Store) (r : Res Unit) (h : p.exec n σ = (r, σ')) (hr : r ≠ .diverge)
    (hm : n ≤ m) : p.exec m σ = (r, σ') := Prog.exec_mono n p σ σ' r h hr m hm

/-- C40: no program hides a fault of one of its statements, not even in a `try`: if it ends normally
or with an exception, so does every statement it comes to execute. -/
theorem C40_no_hidden_fault (p : Prog) (n : Nat) (σ σ' : Store) (r : Res Unit) (h : p.exec n σ = (r, σ')) (hr : r.Defined)
    (s : Stmt) (τ : Store) (hs : Reaches p σ s τ) : (s.exec τ).1.Defined := hs.defined h hr

/-- A statement that faults (here an assertion, on an object no member function makes) inside a
`try`: the program cannot end normally. -/
example (d : Bool) (n : Nat) (σ' : Store) :
    @Prog.exec ⟨false, d⟩ n (.attempt (.stmt (.unary .neg 1 0))) (fun _ => ⟨5, [1]⟩) ≠ (.ok (), σ') := by
  intro h
  have h1 := @C40_no_hidden_fault ⟨false, d⟩ _ n _ σ' _ h trivial _ _ (@Reaches.attempt ⟨false, d⟩ _ _ _ _ (@Reaches.stmt ⟨false, d⟩ _ _))
  have h2 : (@Stmt.exec ⟨false, d⟩ (.unary .neg 1 0) (fun _ => ⟨5, [1]⟩)).1 = .abort := by cases d <;> rfl
  rw [h2] at h1
  exact h1

/-- `while (v₁ < v₂) { ++v₁; v₀ *= v₁; }` -/
def factorial : Prog := .whileDo (.rel .lt 1 2) (.seq (.stmt (.inc 1)) (.stmt (.update .mul 0 1)))

omit [Cfg] in
/-- `C40_program_partial` applied to an unbounded family of runs: the loop computes factorials. -/
theorem factorial_runs (n : Nat) (h : InRange (n.factorial : Int)) (ρ : IntStore) (h0 : ρ 0 = 1) (h1 : ρ 1 = 0) (h2 : ρ 2 = n)
    (hr : ∀ i, InRange (ρ i)) : ∃ ρ', Runs factorial ρ none ρ' ∧ ρ' 0 = n.factorial := by
  have le : ∀ {a b : Nat}, InRange (b : Int) → a ≤ b → InRange (a : Int) := by
    intro a b hb hab
    unfold InRange at *
    rw [Int.natAbs_natCast] at *
    exact lt_of_le_of_lt hab hb
  suffices H : ∀ m k, k + m = n → ∀ ρ : IntStore, ρ 0 = k.factorial → ρ 1 = k → ρ 2 = n → (∀ i, InRange (ρ i)) →
      ∃ ρ', Runs factorial ρ none ρ' ∧ ρ' 0 = n.factorial from H n 0 (by omega) ρ (by simpa using h0) (by simpa using h1) h2 hr
  intro m
  induction m with
  | zero =>
    intro k hk ρ h0 h1 h2 hr
    obtain rfl : k = n := by omega
    exact ⟨ρ, Runs.whileFalse _ _ _ hr (by show ¬ ρ 1 < ρ 2; rw [h1, h2]; omega), h0⟩
  | succ m ih =>
    intro k hk ρ h0 h1 h2 hr
    have f1 : InRange ((k + 1).factorial : Int) := le h (Nat.factorial_le (by omega))
    have f2 : InRange ((k + 1 : Nat) : Int) := le f1 (Nat.self_le_factorial _)
    let ρ1 := ρ.set 1 (ρ 1 + 1)
    have r1 : ∀ i, InRange (ρ1 i) := by
      intro i
      by_cases hi : i = 1
      · show InRange (if i = 1 then ρ 1 + 1 else ρ i)
        rw [if_pos hi, h1]; exact_mod_cast f2
      · show InRange (if i = 1 then ρ 1 + 1 else ρ i)
        rw [if_neg hi]; exact hr i
    have e1 : ρ1 1 = (k + 1 : Nat) := by show ρ 1 + 1 = _; rw [h1]; push_cast; rfl
    have e0 : ρ1 0 = k.factorial := h0
    let ρ2 := ρ1.set 0 (ρ1 0 * ρ1 1)
    have g0 : ρ2 0 = (k + 1).factorial := by
      show ρ1 0 * ρ1 1 = _
      rw [e0, e1, Nat.factorial_succ]; push_cast; ring
    have r2 : ∀ i, InRange (ρ2 i) := by
      intro i
      by_cases hi : i = 0
      · subst hi; rw [g0]; exact f1
      · show InRange (if i = 0 then ρ1 0 * ρ1 1 else ρ1 i)
        rw [if_neg hi]; exact r1 i
    obtain ⟨ρ', a1, a2⟩ := ih (k + 1) (by omega) ρ2 g0 e1 h2 r2
    refine ⟨ρ', Runs.whileTrue _ _ ρ ρ2 ρ' none hr (by show ρ 1 < ρ 2; rw [h1, h2]; omega) ?_ a1, a2⟩
    exact Runs.seq _ _ ρ ρ1 ρ2 none (Runs.stmt _ _ _ hr trivial rfl r1) (Runs.stmt _ _ _ r1 trivial rfl r2)

example (n : Nat) (h : InRange (n.factorial : Int)) (ρ : IntStore) (h0 : ρ 0 = 1) (h1 : ρ 1 = 0) (h2 : ρ 2 = n)
    (hr : ∀ i, InRange (ρ i)) (σ : Store) (hσ : σ.Shows ρ) :
    ∃ fuel σ', factorial.exec fuel σ = (.ok (), σ') ∧ (σ' 0).Denotes n.factorial := by
  obtain ⟨ρ', h3, h4⟩ := factorial_runs n h ρ h0 h1 h2 hr
  obtain ⟨m, σ', h5, h6⟩ := C40_program_partial _ _ _ _ h3 σ hσ
  exact ⟨m, σ', h6 m le_rfl, h4 ▸ h5 0⟩

/-- `while (!v₁.is_zero()) { v₀ %= v₁; std::swap(v₀, v₁); }` -/
def euclid : Prog := .whileDo (.not (.isZero 1)) (.seq (.stmt (.update .rem 0 1)) (.stmt (.swap 0 1)))

omit [Cfg] in
/-- Another unbounded family of runs of `C40_program_partial`: the loop computes greatest common
divisors. -/
theorem euclid_runs (m : Nat) : ∀ (n : Nat) (ρ : IntStore), ρ 0 = n → ρ 1 = m → (∀ i, InRange (ρ i)) →
    ∃ ρ', Runs euclid ρ none ρ' ∧ ρ' 0 = Nat.gcd m n := by
  induction m using Nat.strong_induction_on with
  | _ m ih =>
  intro n ρ h0 h1 hr
  rcases Nat.eq_zero_or_pos m with rfl | hm
  · exact ⟨ρ, .whileFalse _ _ _ hr (fun h => h h1), by rw [h0, Nat.gcd_zero_left]⟩
  · let ρ1 := ρ.set 0 ((ρ 0).tmod (ρ 1))
    let ρ2 := (ρ1.set 0 (ρ1 1)).set 1 (ρ1 0)
    have e1 : (ρ 0).tmod (ρ 1) = (n % m : Nat) := by rw [h0, h1]; rfl
    have hlt : n % m < m := Nat.mod_lt _ hm
    have r1 : ∀ i, InRange (ρ1 i) := by
      intro i
      show InRange (if i = 0 then (ρ 0).tmod (ρ 1) else ρ i)
      by_cases hi : i = 0
      · have := hr 1
        rw [if_pos hi, e1]
        unfold InRange at *
        rw [h1, Int.natAbs_natCast] at this
        rw [Int.natAbs_natCast]
        exact lt_trans hlt this
      · rw [if_neg hi]; exact hr i
    have r2 : ∀ i, InRange (ρ2 i) := by
      intro i
      show InRange (if i = 1 then ρ1 0 else if i = 0 then ρ1 1 else ρ1 i)
      by_cases hi : i = 1
      · rw [if_pos hi]; exact r1 0
      · rw [if_neg hi]
        by_cases hi : i = 0
        · rw [if_pos hi]; exact r1 1
        · rw [if_neg hi]; exact r1 i
    obtain ⟨ρ', a1, a2⟩ := ih (n % m) hlt m ρ2 h1 e1 r2
    refine ⟨ρ', .whileTrue _ _ ρ ρ2 ρ' none hr (fun h => ?_) (.seq _ _ ρ ρ1 ρ2 none (.stmt _ _ _ hr trivial ?_ r1) (.stmt _ _ _ r1 trivial rfl r2)) a1, ?_⟩
    · have h' : ρ 1 = 0 := h
      rw [h1] at h'; omega
    · show Except.map _ (if ρ 1 = 0 then .error Exn.divideByZero else .ok ((ρ 0).tmod (ρ 1))) = _
      rw [if_neg (by rw [h1]; omega)]
      rfl
    · rw [a2, ← Nat.gcd_rec]

example (m n : Nat) (ρ : IntStore) (h0 : ρ 0 = n) (h1 : ρ 1 = m) (hr : ∀ i, InRange (ρ i)) (σ : Store) (hσ : σ.Shows ρ) :
    ∃ fuel σ', euclid.exec fuel σ = (.ok (), σ') ∧ (σ' 0).Denotes (Nat.gcd m n : Nat) := by
  obtain ⟨ρ', h3, h4⟩ := euclid_runs m n ρ h0 h1 hr
  obtain ⟨k, σ', h5, h6⟩ := C40_program_partial _ _ _ _ h3 σ hσ
  exact ⟨k, σ', h6 k le_rfl, h4 ▸ h5 0⟩

/-- `v₀ = v₀ / v₁` with `v₁ = 0`, in a `try`; then `v₀ += v₀`. -/
example (ρ : IntStore) (h : ∀ i, (ρ i).natAbs < 1000) (h1 : ρ 1 = 0) :
    Runs (.seq (.attempt (.stmt (.update .div 0 1))) (.stmt (.update .add 0 0))) ρ none (ρ.set 0 (ρ 0 + ρ 0)) := by
  have hr : ∀ i, InRange (ρ i) := fun i => inRange_small (lt_trans (h i) (by decide))
  refine .seq _ _ ρ ρ _ none (.attempt _ ρ ρ (some .divideByZero) (.stmtThrow _ _ _ hr trivial ?_)) (.stmt _ _ _ hr trivial rfl ?_)
  · simp [Stmt.meaning, BinOp.meaning, h1, Except.map]
  · intro i
    by_cases hi : i = 0
    · have := h 0
      show InRange (if i = 0 then ρ 0 + ρ 0 else ρ i)
      rw [if_pos hi]; exact inRange_small (by omega)
    · show InRange (if i = 0 then ρ 0 + ρ 0 else ρ i)
      rw [if_neg hi]; exact hr i

/-! ### C41 debug and release builds agree -/

omit [Cfg] in
/-- C41: whatever the build (asserts compiled in or not, see `Cfg`), a program as in C40 gives the
very same result and objects. -/
theorem C41_program (c d : Cfg) (p : Prog) (ρ ρ' : IntStore) (o : Option Exn) (h : Runs p ρ o ρ') (σ : Store) (hσ : σ.Shows ρ) :
    ∃ n, ∀ fuel, n ≤ fuel → @Prog.exec c fuel p σ = @Prog.exec d fuel p σ ∧ (@Prog.exec c fuel p σ).1 ≠ .abort := by
  obtain ⟨n, σ1, h1, h2⟩ := @Runs.exec c p ρ ρ' o h σ hσ
  obtain ⟨m, σ2, h3, h4⟩ := @Runs.exec d p ρ ρ' o h σ hσ
  refine ⟨max n m, fun fuel hf => ?_⟩
  rw [h2 fuel (by omega), h4 fuel (by omega), h1.unique h3]
  exact ⟨rfl, by cases o <;> exact nofun⟩

omit [Cfg] in
/-- C41 for a single operation: if two builds both return the integer that is asked for, they
return the same object.  This is the case for every theorem of the form `Returns … …` here, all of
which hold for every `Cfg`. -/
theorem C41_same_object (r s : Res BigInt) (z : Int) (hr : Returns r z) (hs : Returns s z) : r = s := by
  obtain ⟨a, rfl, ha⟩ := hr
  obtain ⟨b, rfl, hb⟩ := hs
  let _ : Cfg := ⟨true, true⟩
  rw [ha.unique hb]

omit [Cfg] in
/-- C41 for the operators, on all values below the size limit. -/
theorem C41_operators (c d : Cfg) (a b : BigInt) (ha : a.Valid) (hb : b.Valid) (fa : a.bits.length < 2147483646)
    (fb : b.bits.length < 2147483646) :
    @BigInt.add c a b = @BigInt.add d a b ∧ @BigInt.sub c a b = @BigInt.sub d a b ∧
    (a.bits.length + b.bits.length < 2147483647 → @BigInt.mul c a b = @BigInt.mul d a b) ∧
    @BigInt.div c a b = @BigInt.div d a b ∧ @BigInt.rem c a b = @BigInt.rem d a b ∧
    @BigInt.and c a b = @BigInt.and d a b ∧ @BigInt.or c a b = @BigInt.or d a b ∧ @BigInt.xor c a b = @BigInt.xor d a b ∧
    @BigInt.neg c a = @BigInt.neg d a ∧ @BigInt.lt c a b = @BigInt.lt d a b := by
  have da : a.Denotes a.toInt := ⟨ha, rfl⟩
  have db : b.Denotes b.toInt := ⟨hb, rfl⟩
  have bit : ∀ {r s : Res BigInt} {z w : Int}, Returns r z → Returns s w → (∀ k, ibit z k = ibit w k) → r = s := by
    intro r s z w h1 h2 h3
    obtain rfl : z = w := ibit_ext h3
    exact C41_same_object _ _ _ h1 h2
  refine ⟨C41_same_object _ _ _ (@BigInt.add_spec c _ _ _ _ da db (by omega) (by omega)) (@BigInt.add_spec d _ _ _ _ da db (by omega) (by omega)),
    C41_same_object _ _ _ (@BigInt.sub_spec c _ _ _ _ da db (by omega) (by omega)) (@BigInt.sub_spec d _ _ _ _ da db (by omega) (by omega)),
    fun h => C41_same_object _ _ _ (@BigInt.mul_spec c _ _ _ _ da db (by omega)) (@BigInt.mul_spec d _ _ _ _ da db (by omega)),
    ?_, ?_, ?_, ?_, ?_, C41_same_object _ _ _ (@BigInt.neg_spec c _ _ da) (@BigInt.neg_spec d _ _ da), ?_⟩
  · by_cases h0 : b.toInt = 0
    · rw [h0] at db; rw [@BigInt.div_zero_spec c _ _ _ da db (by omega), @BigInt.div_zero_spec d _ _ _ da db (by omega)]
    · exact C41_same_object _ _ _ (@BigInt.div_spec c _ _ _ _ da db h0 (by omega)) (@BigInt.div_spec d _ _ _ _ da db h0 (by omega))
  · by_cases h0 : b.toInt = 0
    · rw [h0] at db; rw [@BigInt.rem_zero_spec c _ _ _ da db (by omega), @BigInt.rem_zero_spec d _ _ _ da db (by omega)]
    · exact C41_same_object _ _ _ (@BigInt.rem_spec c _ _ _ _ da db h0 (by omega)) (@BigInt.rem_spec d _ _ _ _ da db h0 (by omega))
  · obtain ⟨z, h1, h2⟩ := @BigInt.and_spec c _ _ _ _ da db fa fb
    obtain ⟨w, h3, h4⟩ := @BigInt.and_spec d _ _ _ _ da db fa fb
    exact bit h1 h3 fun k => by rw [h2, h4]
  · obtain ⟨z, h1, h2⟩ := @BigInt.or_spec c _ _ _ _ da db fa fb
    obtain ⟨w, h3, h4⟩ := @BigInt.or_spec d _ _ _ _ da db fa fb
    exact bit h1 h3 fun k => by rw [h2, h4]
  · obtain ⟨z, h1, h2⟩ := @BigInt.xor_spec c _ _ _ _ da db fa fb
    obtain ⟨w, h3, h4⟩ := @BigInt.xor_spec d _ _ _ _ da db fa fb
    exact bit h1 h3 fun k => by rw [h2, h4]
  · rw [@BigInt.lt_spec c _ _ _ _ da db (by omega) (by omega), @BigInt.lt_spec d _ _ _ _ da db (by omega) (by omega)]

example : @BigInt.add ⟨true, false⟩ neg3 pos2 = @BigInt.add ⟨false, true⟩ neg3 pos2 :=
  (C41_operators ⟨true, false⟩ ⟨false, true⟩ neg3 pos2 neg3_denotes.1 pos2_denotes.1 (by decide) (by decide)).1

end BigIntegerCpp
