import Mathlib.Tactic.Ring
import Verif.Props.PythonProgram
/-
C96: square and multiply as a Python program, on any mixture of `BigInteger`s and `int`s.
-/
set_option linter.unusedSectionVars false
namespace BigIntegerCpp
open Samples
variable [Cfg]

private theorem smaller {a b : Int} (h : a.natAbs ≤ b.natAbs) (hb : InRange b) : InRange a := lt_of_le_of_lt h hb
private theorem nat_range {a : Int} {n : Nat} (h : a.natAbs ≤ n) (hb : InRange n) : InRange a := lt_of_le_of_lt h hb

private theorem loop_plain {t : PyTest} {b : PyStmt} {n : Nat} {x x' : Nat → Int} (ht : t.plain x = some true)
    (hb : b.plain n x = some (some x')) : (PyStmt.loop t b).plain (n + 1) x = (PyStmt.loop t b).plain n x' := by
  rw [PyStmt.plain, ht]
  dsimp only
  rw [hb]

private theorem half {e : Nat} : PyArith.floordiv.floored e 2 = some ((e / 2 : Nat) : Int) := by
  simp only [PyArith.floored, if_neg (show (2 : Int) ≠ 0 by decide), floor_quotient (show (2 : Int) ≠ 0 by decide),
    Int.fdiv_eq_ediv_of_nonneg _ (show (0 : Int) ≤ 2 by decide)]
  rfl

private theorem parity {e : Nat} : PyArith.mod.floored e 2 = some ((e % 2 : Nat) : Int) := by
  simp only [PyArith.floored, if_neg (show (2 : Int) ≠ 0 by decide), floor_quotient (show (2 : Int) ≠ 0 by decide), ← Int.fmod_def,
    Int.fmod_eq_emod_of_nonneg _ (show (0 : Int) ≤ 2 by decide)]
  rfl

private theorem not_crosses (e : Nat) : ¬ Crosses (e : Int) 2 := by unfold Crosses; omega

private theorem power_plain (e : Nat) : ∀ (x : Nat → Int) (r b : Int), x 0 = r → x 1 = b → x 2 = e → x 3 = 0 → x 4 = 1 → x 5 = 2 →
    InRange e → InRange ((max 1 r.natAbs * (max 1 b.natAbs) ^ (2 * e) : Nat) : Int) → InRange 2 →
    ∃ n x', pyPower.plain (n + 4) x = some (some x') ∧ x' 0 = r * b ^ e ∧ pyPower.Safe (n + 4) x := by
  induction e using Nat.strong_induction_on with
  | _ e ih =>
    intro x r b h0 h1 h2 h3 h4 h5 he hr two
    have r2 : InRange (x 2) := by rw [h2]; exact he
    have r3 : InRange (x 3) := by rw [h3]; exact smaller (Nat.zero_le _) two
    have r4 : InRange (x 4) := by rw [h4]; exact smaller (by decide) two
    have r5 : InRange (x 5) := by rw [h5]; exact two
    have ht : PyTest.Safe x (.cmp .gt (.arg 2) (.arg 3)) := ⟨⟨r2, trivial⟩, r3, trivial⟩
    by_cases hz : e = 0
    · subst hz
      have et : (PyTest.cmp .gt (.arg 2) (.arg 3)).plain x = some false := by simp [PyTest.plain, PyFormula.plain, h2, h3, PyCmp.meaning]
      refine ⟨0, x, ?_, by rw [h0, pow_zero, mul_one], ht, fun h => ?_⟩
      · simp only [pyPower, PyStmt.plain, et]
      · rw [et] at h; cases h
    · have et : (PyTest.cmp .gt (.arg 2) (.arg 3)).plain x = some true := by
        simp only [PyTest.plain, PyFormula.plain, h2, h3, PyCmp.meaning]
        simp [Nat.pos_of_ne_zero hz]
      have R1 : 1 ≤ max 1 r.natAbs := le_max_left ..
      have W1 : 1 ≤ max 1 b.natAbs := le_max_left ..
      have hR : r.natAbs ≤ max 1 r.natAbs := le_max_right ..
      have hW : b.natAbs ≤ max 1 b.natAbs := le_max_right ..
      generalize max 1 r.natAbs = R at hr R1 hR
      generalize max 1 b.natAbs = W at hr W1 hW
      -- what fits below the bound
      have fit : ∀ z : Int, z.natAbs ≤ R * W ^ (2 * e) → InRange z := fun z h => nat_range h hr
      have W2 : W ^ 2 ≤ W ^ (2 * e) := Nat.pow_le_pow_right W1 (by omega)
      have WW : W ≤ W ^ (2 * e) := Nat.le_self_pow (by omega) W
      have fr : InRange r := fit r (hR.trans (Nat.le_mul_of_pos_right _ (Nat.pow_pos W1)))
      have fb : InRange b := fit b (hW.trans (WW.trans (Nat.le_mul_of_pos_left _ R1)))
      have frb : InRange (r * b) := fit _ (by rw [Int.natAbs_mul]; exact Nat.mul_le_mul hR (hW.trans WW))
      have fbb : InRange (b * b) := fit _ (by
        rw [Int.natAbs_mul]
        calc b.natAbs * b.natAbs ≤ W * W := Nat.mul_le_mul hW hW
          _ = W ^ 2 := by ring
          _ ≤ W ^ (2 * e) := W2
          _ ≤ R * W ^ (2 * e) := Nat.le_mul_of_pos_left _ R1)
      -- the three stores
      let r' : Int := if e % 2 = 1 then r * b else r
      have em : (PyFormula.bin .mod (.arg 2) (.arg 5)).plain x = some ((e % 2 : Nat) : Int) := by
        simp only [PyFormula.plain, h2, h5]
        exact parity
      have ec : (PyTest.cmp .eq (.bin .mod (.arg 2) (.arg 5)) (.arg 4)).plain x = some (decide (e % 2 = 1)) := by
        have : (PyFormula.arg 4).plain x = some 1 := by simp only [PyFormula.plain, h4]
        simp only [PyTest.plain, em, this, PyCmp.meaning, Option.bind_eq_bind, Option.bind_some, Option.some.injEq]
        by_cases ho : e % 2 = 1
        · rw [decide_eq_true ho, ho]; rfl
        · rw [decide_eq_false ho, show e % 2 = 0 by omega]; rfl
      let x1 : Nat → Int := if e % 2 = 1 then fun j => if j = 0 then r * b else x j else x
      have g0 : x1 0 = r' := by
        by_cases ho : e % 2 = 1
        · simp only [x1, r', if_pos ho]; rfl
        · simp only [x1, r', if_neg ho]; exact h0
      have g : ∀ j, j ≠ 0 → x1 j = x j := by
        intro j hj
        by_cases ho : e % 2 = 1
        · simp only [x1, if_pos ho, if_neg hj]
        · simp only [x1, if_neg ho]
      let x2 : Nat → Int := fun j => if j = 1 then b * b else x1 j
      let x3 : Nat → Int := fun j => if j = 2 then ((e / 2 : Nat) : Int) else x2 j
      have e0 : (PyFormula.bin .mul (.arg 0) (.arg 1)).plain x = some (r * b) := by simp [PyFormula.plain, h0, h1, PyArith.floored]
      have s1 : ∀ k, (PyStmt.ite (.cmp .eq (.bin .mod (.arg 2) (.arg 5)) (.arg 4)) (.assign 0 (.bin .mul (.arg 0) (.arg 1))) .skip).plain (k + 2) x =
          some (some x1) := by
        intro k
        rw [PyStmt.plain, ec]
        by_cases ho : e % 2 = 1
        · rw [decide_eq_true ho]
          simp only [PyStmt.plain, e0, Option.map_some, x1, if_pos ho]
        · rw [decide_eq_false ho]
          simp only [PyStmt.plain, x1, if_neg ho]
      have eb : (PyFormula.bin .mul (.arg 1) (.arg 1)).plain x1 = some (b * b) := by
        simp [PyFormula.plain, g 1 (by decide), h1, PyArith.floored]
      have s2 : ∀ k, (PyStmt.assign 1 (.bin .mul (.arg 1) (.arg 1))).plain (k + 1) x1 = some (some x2) := fun k => by
        simp only [PyStmt.plain, eb, Option.map_some, x2]
      have k2 : x2 2 = e := (g 2 (by decide)).trans h2
      have k5 : x2 5 = 2 := (g 5 (by decide)).trans h5
      have eh : (PyFormula.bin .floordiv (.arg 2) (.arg 5)).plain x2 = some ((e / 2 : Nat) : Int) := by
        simp only [PyFormula.plain, k2, k5]
        exact half
      have s3 : ∀ k, (PyStmt.assign 2 (.bin .floordiv (.arg 2) (.arg 5))).plain (k + 1) x2 = some (some x3) := fun k => by
        simp only [PyStmt.plain, eh, Option.map_some, x3]
      have s23 : ∀ k, (PyStmt.seq (.assign 1 (.bin .mul (.arg 1) (.arg 1))) (.assign 2 (.bin .floordiv (.arg 2) (.arg 5)))).plain (k + 2) x1 =
          some (some x3) := fun k => by
        rw [PyStmt.plain, s2]
        exact s3 k
      have hb : ∀ k, (PyStmt.seq (.ite (.cmp .eq (.bin .mod (.arg 2) (.arg 5)) (.arg 4)) (.assign 0 (.bin .mul (.arg 0) (.arg 1))) .skip)
          (.seq (.assign 1 (.bin .mul (.arg 1) (.arg 1))) (.assign 2 (.bin .floordiv (.arg 2) (.arg 5))))).plain (k + 3) x = some (some x3) := fun k => by
        rw [PyStmt.plain, s1]
        exact s23 k
      have hr' : InRange ((max 1 r'.natAbs * (max 1 (b * b).natAbs) ^ (2 * (e / 2)) : Nat) : Int) := by
        refine fit _ ?_
        rw [Int.natAbs_natCast]
        have m1 : max 1 (b * b).natAbs ≤ W ^ 2 := max_le (Nat.one_le_pow _ _ W1) (by
          rw [Int.natAbs_mul, pow_two]; exact Nat.mul_le_mul hW hW)
        have m2 : max 1 r'.natAbs ≤ R * W ^ (e % 2) := by
          by_cases ho : e % 2 = 1
          · simp only [r', if_pos ho]
            rw [ho, pow_one, Int.natAbs_mul]
            exact max_le (Nat.mul_pos R1 W1) (Nat.mul_le_mul hR hW)
          · simp only [r', if_neg ho]
            exact (max_le R1 hR).trans (Nat.le_mul_of_pos_right _ (Nat.pow_pos W1))
        calc _ ≤ R * W ^ (e % 2) * (W ^ 2) ^ (2 * (e / 2)) := Nat.mul_le_mul m2 (Nat.pow_le_pow_left m1 _)
          _ = R * W ^ (e % 2 + 2 * (2 * (e / 2))) := by rw [← pow_mul, mul_assoc, ← pow_add]
          _ ≤ R * W ^ (2 * e) := Nat.mul_le_mul_left _ (Nat.pow_le_pow_right W1 (by omega))
      obtain ⟨n, x', h6, h7, h8⟩ := ih (e / 2) (by omega) x3 r' (b * b) g0 rfl rfl ((g 3 (by decide)).trans h3) ((g 4 (by decide)).trans h4)
        ((g 5 (by decide)).trans h5) (smaller (by simp only [Int.natAbs_natCast]; omega) he) hr' two
      have sm : PyFormula.Safe x (.bin .mod (.arg 2) (.arg 5)) := by
        refine ⟨⟨r2, r5, fun z hz => ?_⟩, trivial, trivial, fun _ u w hu hw => ?_⟩
        · rw [em] at hz
          cases hz
          exact smaller (by simp only [Int.natAbs_natCast]; exact Nat.mod_le _ _) he
        · simp only [PyFormula.plain, h2, h5, Option.some.injEq] at hu hw
          subst hu; subst hw
          exact not_crosses e
      have sr : PyFormula.Safe x (.bin .mul (.arg 0) (.arg 1)) := by
        refine ⟨⟨by change InRange (x 0); rw [h0]; exact fr, by change InRange (x 1); rw [h1]; exact fb, fun z hz => ?_⟩, trivial, trivial,
          fun h => absurd h (by decide)⟩
        rw [e0] at hz
        cases hz
        exact frb
      have sb : PyFormula.Safe x1 (.bin .mul (.arg 1) (.arg 1)) := by
        have q1 : InRange (x1 1) := by rw [g 1 (by decide), h1]; exact fb
        refine ⟨⟨q1, q1, fun z hz => ?_⟩, trivial, trivial, fun h => absurd h (by decide)⟩
        rw [eb] at hz
        cases hz
        exact fbb
      have sh : PyFormula.Safe x2 (.bin .floordiv (.arg 2) (.arg 5)) := by
        refine ⟨⟨by change InRange (x2 2); rw [k2]; exact he, by change InRange (x2 5); rw [k5]; exact two, fun z hz => ?_⟩, trivial, trivial,
          fun _ u w hu hw => ?_⟩
        · rw [eh] at hz
          cases hz
          exact smaller (by simp only [Int.natAbs_natCast]; exact Nat.div_le_self _ _) he
        · simp only [PyFormula.plain, k2, k5, Option.some.injEq] at hu hw
          subst hu; subst hw
          exact not_crosses e
      refine ⟨n + 1, x', ?_, ?_, ht, fun _ => ⟨⟨⟨⟨sm, r4, trivial⟩, fun _ => sr, fun _ => trivial⟩, fun y hy => ?_⟩, fun y hy => ?_⟩⟩
      · rw [← h6]
        exact loop_plain et (hb (n + 1))
      · rw [h7]
        have e2 : b ^ e = b ^ (e % 2) * (b * b) ^ (e / 2) := by
          conv_lhs => rw [← Nat.mod_add_div e 2, pow_add, pow_mul, pow_two]
        rw [e2]
        by_cases ho : e % 2 = 1
        · simp only [r', if_pos ho, ho, pow_one, mul_assoc]
        · have : e % 2 = 0 := by omega
          simp only [r', if_neg ho, this, pow_zero, one_mul]
      · rw [s1] at hy
        cases hy
        refine ⟨sb, fun y hy => ?_⟩
        rw [s2] at hy
        cases hy
        exact sh
      · rw [hb] at hy
        cases hy
        exact h8

/-- `while e > 0: if e % 2 == 1: r = r * b` … `b = b * b; e = e // 2`, for `BigInteger`s and `int`s in any mixture: from `r = 1` the program ends
with `r = b ** e`, for every `b` and every `e` that is not negative. -/
theorem C96_power (env : Nat → PyObject) (b : Int) (e : Nat) (h0 : (env 0).Stands 1) (h1 : (env 1).Stands b) (h2 : (env 2).Stands e)
    (h3 : (env 3).Stands 0) (h4 : (env 4).Stands 1) (h5 : (env 5).Stands 2) (hrest : ∀ i, ∃ z, (env i).Stands z) (he : InRange e)
    (hr : InRange ((max 1 b.natAbs) ^ (2 * e) : Nat)) (hs : Cfg.strictShift = false) :
    ∃ n env', pyPower.run n env = some (.value env') ∧ (env' 0).Stands (b ^ e) := by
  choose v hv using hrest
  let x : Nat → Int := fun i => match i with
    | 0 => 1 | 1 => b | 2 => e | 3 => 0 | 4 => 1 | 5 => 2 | i => v i
  have hx : ∀ i, (env i).Stands (x i) := fun i => match i with
    | 0 => h0 | 1 => h1 | 2 => h2 | 3 => h3 | 4 => h4 | 5 => h5 | i + 6 => hv (i + 6)
  have two : InRange 2 := lt_of_lt_of_le (show _ < 2 ^ 2 by decide) (Nat.pow_le_pow_right (by decide) (by decide))
  obtain ⟨n, x', h6, h7, h8⟩ := power_plain e x 1 b rfl rfl rfl rfl rfl rfl he (by
    rw [show max 1 (1 : Int).natAbs = 1 from rfl, one_mul]; exact hr) two
  have := C96_program_partial (n + 4) pyPower env x hx h8 hs
  rw [h6] at this
  cases hrun : pyPower.run (n + 4) env with
  | none => rw [hrun] at this; exact this.elim
  | some out =>
    rw [hrun] at this
    obtain ⟨env', rfl, he'⟩ := this
    exact ⟨_, env', hrun, by rw [← one_mul (b ^ e), ← h7]; exact he' 0⟩

private theorem tiny {x : Int} (h : x.natAbs < 2 ^ 200) : InRange x :=
  lt_of_lt_of_le h (Nat.pow_le_pow_right (by decide) (by decide))
private def sampleEnv : Nat → PyObject
  | 0 => .int ⟨1, false, by decide⟩
  | 1 => .big small
  | 2 => .int ⟨7, false, by decide⟩
  | 3 => .int ⟨0, true, by decide⟩
  | 4 => .int ⟨1, false, by decide⟩
  | _ => .int ⟨2, false, by decide⟩
example (hs : Cfg.strictShift = false) : ∃ n env', pyPower.run n sampleEnv = some (.value env') ∧ (env' 0).Stands ((-42) ^ 7) :=
  C96_power sampleEnv (-42) 7 rfl small_denotes rfl rfl rfl rfl
    (fun i => match i with | 0 => ⟨_, rfl⟩ | 1 => ⟨_, small_denotes⟩ | 2 => ⟨_, rfl⟩ | 3 => ⟨_, rfl⟩ | 4 => ⟨_, rfl⟩ | _ + 5 => ⟨_, rfl⟩)
    (tiny (by decide)) (tiny (by decide)) hs

end BigIntegerCpp
