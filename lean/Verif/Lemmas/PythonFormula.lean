import Verif.PythonFormulaSpec
import Mathlib.Tactic.Linarith
/-
Floored and truncated division, for formulas of Python.
-/
namespace BigIntegerCpp

theorem floor_quotient {x y : Int} (h : y ≠ 0) : ⌊(x / y : ℚ)⌋ = x.fdiv y := by
  have key : ∀ (x y : Int), 0 < y → ⌊(x / y : ℚ)⌋ = x.fdiv y := by
    intro x y h
    obtain ⟨n, rfl⟩ := Int.eq_ofNat_of_zero_le h.le
    rw [Int.fdiv_eq_ediv_of_nonneg _ h.le]
    exact_mod_cast Rat.floor_intCast_div_natCast x n
  rcases lt_or_gt_of_ne h with h | h
  · rw [← Int.neg_fdiv_neg, ← key _ _ (by omega)]
    push_cast
    rw [neg_div_neg_eq]
  · exact key x y h

theorem fdiv_eq_tdiv_iff {x y : Int} (h : y ≠ 0) : x.fdiv y = x.tdiv y ↔ ¬ Crosses x y := by
  unfold Crosses
  rw [Int.fdiv_eq_tdiv]
  by_cases hd : y ∣ x
  · simp [hd]
  · have hx0 : x ≠ 0 := by rintro rfl; exact hd (dvd_zero y)
    rw [if_neg hd]
    rcases lt_or_gt_of_ne hx0 with hx | hx <;> rcases lt_or_gt_of_ne h with hy | hy
    · rw [if_neg (show ¬ 0 ≤ x by omega), if_neg (show ¬ 0 ≤ y by omega), Int.sign_eq_neg_one_of_neg hy]; omega
    · rw [if_neg (show ¬ 0 ≤ x by omega), if_pos (show 0 ≤ y by omega), Int.sign_eq_one_of_pos hy]
      exact ⟨fun e => by generalize x.tdiv y = t at e; omega, fun e => absurd ⟨hd, .inr ⟨hx, hy⟩⟩ e⟩
    · rw [if_pos (show 0 ≤ x by omega), if_neg (show ¬ 0 ≤ y by omega)]
      exact ⟨fun e => by generalize x.tdiv y = t at e; omega, fun e => absurd ⟨hd, .inl ⟨hx, hy⟩⟩ e⟩
    · rw [if_pos (show 0 ≤ x by omega), if_pos (show 0 ≤ y by omega)]; omega

theorem fmod_eq_tmod_iff {x y : Int} (h : y ≠ 0) : x.fmod y = x.tmod y ↔ ¬ Crosses x y := by
  rw [← fdiv_eq_tdiv_iff h, Int.fmod_def, Int.tmod_def]
  constructor
  · intro e
    have : y * x.fdiv y = y * x.tdiv y := by linarith
    exact mul_left_cancel₀ h this
  · intro e; rw [e]

/-- The two kinds of operator. -/
theorem floored_eq_iff (o : PyArith) (x y : Int) (h : o.Divides → y ≠ 0) :
    o.floored x y = o.truncated x y ↔ ¬ (o.Divides ∧ Crosses x y) := by
  cases o with
  | mod =>
    have h := h (.inl rfl)
    simp only [PyArith.floored, PyArith.truncated, if_neg h, Option.some.injEq, floor_quotient h]
    rw [← Int.fmod_def, fmod_eq_tmod_iff h]
    simp [PyArith.Divides]
  | floordiv =>
    have h := h (.inr rfl)
    simp only [PyArith.floored, PyArith.truncated, if_neg h, Option.some.injEq, floor_quotient h]
    rw [fdiv_eq_tdiv_iff h]
    simp [PyArith.Divides]
  | _ => simp [PyArith.floored, PyArith.truncated, PyArith.Divides]

theorem floored_none_iff (o : PyArith) (x y : Int) : o.floored x y = none ↔ o.Divides ∧ y = 0 := by
  cases o <;> simp [PyArith.floored, PyArith.Divides]

theorem truncated_none_iff (o : PyArith) (x y : Int) : o.truncated x y = none ↔ o.Divides ∧ y = 0 := by
  cases o <;> simp [PyArith.truncated, PyArith.Divides]

theorem not_crosses_zero (x : Int) : ¬ Crosses x 0 := by unfold Crosses; omega

theorem floored_eq (o : PyArith) (x y : Int) (h : o.Divides → ¬ Crosses x y) : o.floored x y = o.truncated x y := by
  by_cases hy : o.Divides ∧ y = 0
  · rw [(floored_none_iff o x y).2 hy, (truncated_none_iff o x y).2 hy]
  · exact (floored_eq_iff o x y (fun hd h0 => hy ⟨hd, h0⟩)).2 fun hc => h hc.1 hc.2

theorem meaning_truncated (o : PyArith) (x y : Int) :
    o.op.meaning x y = match o.truncated x y with | some z => .ok z | none => .error .divideByZero := by
  cases o with
  | mod | floordiv =>
    by_cases h : y = 0
    · simp only [PyArith.op, PyOp.meaning, PyArith.truncated, if_pos h]
    · simp only [PyArith.op, PyOp.meaning, PyArith.truncated, if_neg h]
  | _ => rfl

theorem ints_floored (o : PyArith) (x y : Int) :
    o.ints x y = match o.floored x y with | some z => .value (pyWrap (.inr z)) | none => .raises .zeroDivisionError := by
  cases o with
  | mod | floordiv =>
    by_cases h : y = 0
    · simp only [PyArith.ints, PyArith.floored, if_pos h]
    · simp only [PyArith.ints, PyArith.floored, if_neg h, floor_quotient h, ← Int.fmod_def]
  | _ => rfl

/-- Without a division with a remainder and operands of opposite signs the types make no difference. -/
theorem mixed_plain {big : Nat → Bool} {x : Nat → Int} {f : PyFormula} (h : f.Straight x) :
    (∀ z, f.plain x = some z → f.mixed big x = .ok z) ∧
      (f.plain x = none → ∃ e, f.mixed big x = .error e ∧ (e = .runtimeError ∨ e = .zeroDivisionError)) := by
  induction f with
  | arg i => exact ⟨fun z hz => by cases hz; rfl, fun hn => by cases hn⟩
  | un o e ih =>
    obtain ⟨h1, h2⟩ := ih h
    cases hp : e.plain x with
    | none =>
      obtain ⟨ex, h3, h4⟩ := h2 hp
      exact ⟨fun z hz => by simp [PyFormula.plain, hp] at hz, fun _ => ⟨ex, by simp only [PyFormula.mixed, h3]; rfl, h4⟩⟩
    | some u =>
      have h3 := h1 u hp
      refine ⟨fun z hz => ?_, fun hn => by simp [PyFormula.plain, hp] at hn⟩
      simp only [PyFormula.plain, hp, Option.map_some, Option.some.injEq] at hz
      subst hz
      simp only [PyFormula.mixed, h3]
      rfl
  | bin o l r ihl ihr =>
    obtain ⟨hl, hr, hd⟩ := h
    obtain ⟨l1, l2⟩ := ihl hl
    obtain ⟨r1, r2⟩ := ihr hr
    cases hpl : l.plain x with
    | none =>
      obtain ⟨ex, h3, h4⟩ := l2 hpl
      exact ⟨fun z hz => by simp [PyFormula.plain, hpl] at hz, fun _ => ⟨ex, by simp only [PyFormula.mixed, h3], h4⟩⟩
    | some u =>
      have hml := l1 u hpl
      cases hpr : r.plain x with
      | none =>
        obtain ⟨ex, h3, h4⟩ := r2 hpr
        exact ⟨fun z hz => by simp [PyFormula.plain, hpl, hpr] at hz, fun _ => ⟨ex, by simp only [PyFormula.mixed, hml, h3], h4⟩⟩
      | some v =>
        have hmr := r1 v hpr
        have ep : (PyFormula.bin o l r).plain x = o.floored u v := by simp [PyFormula.plain, hpl, hpr]
        simp only [ep, PyFormula.mixed, hml, hmr]
        rw [← floored_eq o u v fun h => hd h u v hpl hpr]
        cases o.floored u v with
        | none =>
          refine ⟨fun z hz => (by cases hz), fun _ => ?_⟩
          by_cases hc : (big l.leftmost || big r.leftmost) = true
          · exact ⟨_, if_pos hc, .inl rfl⟩
          · exact ⟨_, if_neg hc, .inr rfl⟩
        | some w =>
          exact ⟨fun z hz => by cases hz; exact ite_self _, fun hn => by cases hn⟩

end BigIntegerCpp
