import Verif.Props.PythonProgram
import Mathlib.Data.Nat.Sqrt
import Mathlib.Tactic.Linarith
/-
C96: Newton's integer square root as a Python program, on any mixture of `BigInteger`s and `int`s.
-/
set_option linter.unusedSectionVars false
namespace BigIntegerCpp
open Samples
variable [Cfg]

private theorem plain_step {t : PyTest} {b : PyStmt} {n : Nat} {x x' : Nat → Int} (ht : t.plain x = some true)
    (hb : b.plain n x = some (some x')) : (PyStmt.loop t b).plain (n + 1) x = (PyStmt.loop t b).plain n x' := by
  rw [PyStmt.plain, ht]
  dsimp only
  rw [hb]

private theorem quotient (u v : Nat) (hv : 0 < v) : PyArith.floordiv.floored u v = some ((u / v : Nat) : Int) := by
  have h0 : (v : Int) ≠ 0 := by omega
  simp only [PyArith.floored, if_neg h0, floor_quotient h0, Int.fdiv_eq_ediv_of_nonneg _ (show (0 : Int) ≤ v by omega)]
  rfl

private theorem not_crosses (u v : Nat) : ¬ Crosses (u : Int) v := by
  unfold Crosses
  omega

private theorem newton_above (n x : Nat) (hx : 0 < x) : n < ((x + n / x) / 2 + 1) * ((x + n / x) / 2 + 1) := by
  have h1 : n < x * (n / x + 1) := Nat.lt_mul_div_succ n hx
  have h2 : x + n / x + 1 ≤ 2 * ((x + n / x) / 2 + 1) := by omega
  generalize (x + n / x) / 2 + 1 = y at *
  generalize n / x = q at *
  have h3 : (x + q + 1) * (x + q + 1) ≤ 2 * y * (2 * y) := Nat.mul_le_mul h2 h2
  have h4 : 4 * (x * (q + 1)) ≤ (x + q + 1) * (x + q + 1) := by
    zify
    nlinarith [sq_nonneg ((x : Int) - (q + 1))]
  nlinarith

private theorem newton_sum (n x : Nat) (hx : 0 < x) (hxn : x ≤ n) : x + n / x ≤ n + 1 := by
  have h1 : x * (n / x) ≤ n := Nat.mul_div_le n x
  have h2 : 1 ≤ n / x := (Nat.one_le_div_iff hx).2 hxn
  generalize n / x = q at *
  obtain ⟨a, rfl⟩ := Nat.exists_eq_add_of_le hx
  obtain ⟨b, rfl⟩ := Nat.exists_eq_add_of_le h2
  nlinarith [Nat.zero_le (a * b)]

private theorem newton_plain (n : Nat) (hr : InRange (n + 1 : Nat)) (v : Nat) : ∀ x : Nat → Int, x 0 = n → x 1 = v → x 2 = ((v + n / v) / 2 : Nat) →
    x 3 = 2 → 0 < v → v ≤ n → n < (v + 1) * (v + 1) → ∃ k x', pyNewton.plain (k + 3) x = some (some x') ∧ x' 1 = (Nat.sqrt n : Nat) ∧
      pyNewton.Safe (k + 3) x := by
  have le : ∀ {a : Nat}, a ≤ n + 1 → InRange a := fun h => lt_of_le_of_lt h hr
  induction v using Nat.strong_induction_on with
  | _ v ih =>
    intro x h0 h1 h2 h3 hv hvn hlow
    have hsum := newton_sum n v hv hvn
    have r1 : InRange (x 1) := by rw [h1]; exact le (by omega)
    have r2 : InRange (x 2) := by rw [h2]; exact le (by omega)
    have ht : PyTest.Safe x (.cmp .lt (.arg 2) (.arg 1)) := ⟨⟨r2, trivial⟩, r1, trivial⟩
    generalize hy : (v + n / v) / 2 = y at h2
    by_cases hlt : y < v
    · have e : (PyTest.cmp .lt (.arg 2) (.arg 1)).plain x = some true := by
        simp only [PyTest.plain, PyFormula.plain, h1, h2, PyCmp.meaning]
        simp [hlt]
      have hq : 1 ≤ n / v := (Nat.one_le_div_iff hv).2 hvn
      have hy0 : 0 < y := by omega
      have hsum' := newton_sum n y hy0 (by omega)
      let x1 : Nat → Int := fun j => if j = 1 then x 2 else x j
      let x2 : Nat → Int := fun j => if j = 2 then (((y + n / y) / 2 : Nat) : Int) else x1 j
      have e1 : (PyFormula.bin .floordiv (.arg 0) (.arg 1)).plain x1 = some ((n / y : Nat) : Int) := by
        rw [← quotient n y hy0, ← h0, ← h2]
        rfl
      have e2 : (PyFormula.bin .add (.arg 1) (.bin .floordiv (.arg 0) (.arg 1))).plain x1 = some ((y + n / y : Nat) : Int) := by
        rw [PyFormula.plain, e1]
        change some (x 2 + ((n / y : Nat) : Int)) = _
        rw [h2]
        rfl
      have e3 : (PyFormula.bin .floordiv (.bin .add (.arg 1) (.bin .floordiv (.arg 0) (.arg 1))) (.arg 3)).plain x1 =
          some (((y + n / y) / 2 : Nat) : Int) := by
        rw [PyFormula.plain, e2]
        change PyArith.floordiv.floored _ (x 3) = _
        rw [h3]
        exact quotient (y + n / y) 2 (by decide)
      have s1 : ∀ k, (PyStmt.assign 1 (.arg 2)).plain (k + 1) x = some (some x1) := fun k => rfl
      have s2 : ∀ k, (PyStmt.assign 2 (.bin .floordiv (.bin .add (.arg 1) (.bin .floordiv (.arg 0) (.arg 1))) (.arg 3))).plain (k + 1) x1 =
          some (some x2) := fun k => by
        simp only [PyStmt.plain, e3, Option.map_some, x2]
      have hb : ∀ k, (PyStmt.seq (.assign 1 (.arg 2))
          (.assign 2 (.bin .floordiv (.bin .add (.arg 1) (.bin .floordiv (.arg 0) (.arg 1))) (.arg 3)))).plain (k + 2) x = some (some x2) :=
        fun k => by
          rw [PyStmt.plain, s1]
          exact s2 k
      have hnew : n < (y + 1) * (y + 1) := by rw [← hy]; exact newton_above n v hv
      obtain ⟨k, x', h5, h6, h7⟩ := ih y hlt x2 h0 h2 rfl h3 hy0 (by omega) hnew
      have r0 : InRange (x 0) := by rw [h0]; exact le (by omega)
      have r3 : InRange (x 3) := by rw [h3]; exact le (show 2 ≤ n + 1 by omega)
      refine ⟨k + 1, x', ?_, h6, ht, fun _ => ⟨⟨⟨r2, trivial⟩, fun τ hτ => ?_⟩, fun τ hτ => ?_⟩⟩
      · rw [← h5]
        exact plain_step e (hb (k + 1))
      · rw [s1] at hτ
        cases hτ
        have q1 : PyFormula.InBounds x1 (.bin .floordiv (.arg 0) (.arg 1)) := ⟨r0, r2, fun z hz => by
          rw [e1] at hz; cases hz; exact le (by omega)⟩
        have q2 : PyFormula.InBounds x1 (.bin .add (.arg 1) (.bin .floordiv (.arg 0) (.arg 1))) := ⟨r2, q1, fun z hz => by
          rw [e2] at hz; cases hz; exact le (by omega)⟩
        have q3 : PyFormula.InBounds x1 (.bin .floordiv (.bin .add (.arg 1) (.bin .floordiv (.arg 0) (.arg 1))) (.arg 3)) :=
          ⟨q2, r3, fun z hz => by rw [e3] at hz; cases hz; exact le (by omega)⟩
        have p1 : PyFormula.Straight x1 (.bin .floordiv (.arg 0) (.arg 1)) := ⟨trivial, trivial, fun _ u w hu hw => by
          obtain rfl : x 0 = u := Option.some.inj hu
          obtain rfl : x 2 = w := Option.some.inj hw
          rw [h0, h2]
          exact not_crosses _ _⟩
        refine ⟨q3, ⟨trivial, p1, fun h => absurd h (by decide)⟩, trivial, fun _ u w hu hw => ?_⟩
        rw [e2] at hu
        cases hu
        obtain rfl : x 3 = w := Option.some.inj hw
        rw [h3]
        exact not_crosses _ 2
      · rw [hb] at hτ
        cases hτ
        exact h7
    · have e : (PyTest.cmp .lt (.arg 2) (.arg 1)).plain x = some false := by
        simp only [PyTest.plain, PyFormula.plain, h1, h2, PyCmp.meaning]
        simp [Nat.le_of_not_lt hlt]
      refine ⟨0, x, ?_, ?_, ht, fun h => ?_⟩
      · simp only [pyNewton, PyStmt.plain, e]
      · rw [h1]
        congr 1
        have hq : v ≤ n / v := by omega
        have hsq : v * v ≤ n := (Nat.le_div_iff_mul_le hv).1 hq
        exact Nat.eq_sqrt.2 ⟨hsq, hlow⟩
      · rw [e] at h; cases h

/-- `x = n; y = (x + 1) // 2`, then `while y < x: x = y; y = (x + n // x) // 2`, for `BigInteger`s and `int`s in any mixture and `n`
positive: the program ends, and `x` is then the square root of `n`, rounded down. -/
theorem C96_sqrt (env : Nat → PyObject) (v : Nat) (h0 : (env 0).Stands v) (h3 : (env 3).Stands 2) (h4 : (env 4).Stands 1)
    (hrest : ∀ i, ∃ z, (env i).Stands z) (hv : 0 < v) (hr : InRange (v + 1 : Nat)) (hs : Cfg.strictShift = false) :
    ∃ n env', pySqrt.run n env = some (.value env') ∧ (env' 1).Stands (Nat.sqrt v : Nat) := by
  choose w hw using hrest
  let x : Nat → Int := fun i => match i with
    | 0 => v | 3 => 2 | 4 => 1 | i => w i
  have hx : ∀ i, (env i).Stands (x i) := fun i => match i with
    | 0 => h0 | 1 => hw 1 | 2 => hw 2 | 3 => h3 | 4 => h4 | i + 5 => hw (i + 5)
  let x1 : Nat → Int := fun j => if j = 1 then (v : Int) else x j
  let x2 : Nat → Int := fun j => if j = 2 then (((v + 1) / 2 : Nat) : Int) else x1 j
  have le : ∀ {a : Nat}, a ≤ v + 1 → InRange a := fun h => lt_of_le_of_lt h hr
  have e1 : (PyFormula.bin .add (.arg 1) (.arg 4)).plain x1 = some ((v + 1 : Nat) : Int) := rfl
  have e2 : (PyFormula.bin .floordiv (.bin .add (.arg 1) (.arg 4)) (.arg 3)).plain x1 = some (((v + 1) / 2 : Nat) : Int) := by
    rw [PyFormula.plain, e1]
    exact quotient (v + 1) 2 (by decide)
  have s1 : ∀ k, (PyStmt.assign 1 (.arg 0)).plain (k + 1) x = some (some x1) := fun k => rfl
  have s2 : ∀ k, (PyStmt.assign 2 (.bin .floordiv (.bin .add (.arg 1) (.arg 4)) (.arg 3))).plain (k + 1) x1 = some (some x2) := fun k => by
    simp only [PyStmt.plain, e2, Option.map_some, x2]
  obtain ⟨k, x', h5, h6, h7⟩ := newton_plain v hr v x2 rfl rfl (by rw [Nat.div_self hv]; rfl) rfl hv (Nat.le_refl _) (by nlinarith)
  have hp : pySqrt.plain (k + 5) x = some (some x') := by
    rw [pySqrt, PyStmt.plain, s1]
    dsimp only
    rw [PyStmt.plain, s2]
    exact h5
  have hsafe : pySqrt.Safe (k + 5) x := by
    refine ⟨⟨le (Nat.le_succ _), trivial⟩, fun τ hτ => ?_⟩
    rw [s1] at hτ
    cases hτ
    have q1 : PyFormula.InBounds x1 (.bin .add (.arg 1) (.arg 4)) := ⟨le (Nat.le_succ _), le (show 1 ≤ v + 1 by omega), fun z hz => by
      rw [e1] at hz; cases hz; exact hr⟩
    refine ⟨⟨⟨q1, le (show 2 ≤ v + 1 by omega), fun z hz => ?_⟩, ⟨trivial, trivial, fun h => absurd h (by decide)⟩, trivial, fun _ u w hu hw => ?_⟩,
      fun τ hτ => ?_⟩
    · rw [e2] at hz
      cases hz
      exact le (by omega)
    · rw [e1] at hu
      cases hu
      cases hw
      exact not_crosses _ 2
    · rw [s2] at hτ
      cases hτ
      exact h7
  have := C96_program_partial (k + 5) pySqrt env x hx hsafe hs
  rw [hp] at this
  cases hrun : pySqrt.run (k + 5) env with
  | none => rw [hrun] at this; exact this.elim
  | some out =>
    rw [hrun] at this
    obtain ⟨env', rfl, he⟩ := this
    exact ⟨_, env', hrun, by rw [← h6]; exact he 1⟩

private theorem tiny {x : Int} (h : x.natAbs < 2 ^ 65) : InRange x :=
  lt_of_lt_of_le h (Nat.pow_le_pow_right (by decide) (by decide))
private def sampleEnv : Nat → PyObject
  | 0 => .big pos2
  | 3 => .int ⟨2, false, by decide⟩
  | _ => .int ⟨1, false, by decide⟩
example (hs : Cfg.strictShift = false) : ∃ n env', pySqrt.run n sampleEnv = some (.value env') ∧ (env' 1).Stands 196608 := by
  have h : Nat.sqrt 38654705667 = 196608 := Nat.eq_sqrt.2 (by decide) |>.symm
  obtain ⟨n, env', h1, h2⟩ := C96_sqrt sampleEnv 38654705667 pos2_denotes rfl rfl
    (fun i => match i with | 0 => ⟨_, pos2_denotes⟩ | 1 => ⟨_, rfl⟩ | 2 => ⟨_, rfl⟩ | 3 => ⟨_, rfl⟩ | _ + 4 => ⟨_, rfl⟩) (by decide) (tiny (by decide)) hs
  rw [h] at h2
  exact ⟨n, env', h1, h2⟩

end BigIntegerCpp
