import Verif.Lemmas.PythonFormula
import Verif.Props.PythonDispatch
/-
C95: `BigInteger` in place of `int` in the formulas of a Python program.
-/
set_option linter.unusedSectionVars false
namespace BigIntegerCpp
open Samples
variable [Cfg]

private theorem gives_iff {b : Bool} {out : PyOut PyObject} {z : Int} :
    GivesObject b out z ↔ ∃ o, out = .value o ∧ o.isBig = b ∧ o.Stands z := by
  cases b
  · refine ⟨fun ⟨n, h1, h2⟩ => ⟨_, h1, rfl, h2⟩, fun ⟨o, h1, h2, h3⟩ => ?_⟩
    cases o with
    | int n => exact ⟨n, h1, h3⟩
    | big a => cases h2
    | _ => exact h3.elim
  · refine ⟨fun ⟨n, h1, h2⟩ => ⟨_, h1, rfl, h2⟩, fun ⟨o, h1, h2, h3⟩ => ?_⟩
    cases o with
    | big a => exact ⟨a, h1, h3⟩
    | int n => cases h2
    | _ => exact h3.elim

private theorem fits {a : BigInt} {x : Int} (ha : a.Denotes x) (hx : InRange x) : a.Fits := by
  have := hx.length ha
  unfold BigInt.Fits
  omega

/-- One operator of the bindings. -/
private theorem bound_step (o : PyArith) {l r : PyObject} {x y : Int} (hl : l.Stands x) (hr : r.Stands y) (h : OneBig l r)
    (hx : InRange x) (hy : InRange y) (hs : Cfg.strictShift = false) :
    Evaluates l.isBig (pyArith o l r) (match o.truncated x y with | some z => .ok z | none => .error .runtimeError) := by
  have hb := C77_binary o.op l r x y hl hr h hx hy hs
  rw [meaning_truncated] at hb
  have e : pyArith o l r = match pyBinary o.op.eval l r with
    | .value v => .value (pyWrap v)
    | .raises e => .raises e
    | .elsewhere => .elsewhere
    | .cpp (.ub u) => .cpp (.ub u)
    | .cpp .abort => .cpp .abort
    | .cpp _ => .cpp .diverge := by
    cases l with
    | int m =>
      cases r with
      | int n => rcases h with ⟨_, h⟩ | ⟨_, h⟩ <;> cases h
      | _ => rfl
    | _ => rfl
  rw [e]
  cases ht : o.truncated x y with
  | none =>
    rw [ht] at hb
    dsimp only at hb
    rw [hb]
    rfl
  | some z =>
    rw [ht] at hb
    dsimp only at hb
    cases l with
    | big a =>
      obtain ⟨b, h1, h2⟩ := hb
      rw [h1]
      exact ⟨b, rfl, h2⟩
    | int m =>
      have hb : pyBinary o.op.eval (.int m) r = .value (.inr z) := hb
      rw [hb]
      exact ⟨_, rfl, rfl⟩
    | _ => exact hl.elim

/-- One operator. -/
private theorem arith_step (o : PyArith) {l r : PyObject} {x y : Int} (hl : l.Stands x) (hr : r.Stands y)
    (hx : InRange x) (hy : InRange y) (hs : Cfg.strictShift = false) :
    Evaluates l.isBig (pyArith o l r)
      (if l.isBig || r.isBig then match o.truncated x y with | some z => .ok z | none => .error .runtimeError
       else match o.floored x y with | some z => .ok z | none => .error .zeroDivisionError) := by
  by_cases h : (l.isBig || r.isBig) = true
  · rw [if_pos h]
    refine bound_step o hl hr ?_ hx hy hs
    rcases Bool.or_eq_true_iff.1 h with h | h
    · cases l with
      | big a => exact .inl ⟨a, rfl⟩
      | _ => cases h
    · cases r with
      | big a => exact .inr ⟨a, rfl⟩
      | _ => cases h
  · rw [if_neg h]
    cases l with
    | int m =>
      cases r with
      | int n =>
        obtain rfl : m.value = x := hl
        obtain rfl : n.value = y := hr
        have e : pyArith o (.int m) (.int n) = o.ints m.value n.value := rfl
        rw [e, ints_floored]
        cases o.floored m.value n.value with
        | none => exact rfl
        | some z => exact ⟨_, rfl, rfl⟩
      | big b => simp [PyObject.isBig] at h
      | _ => exact hr.elim
    | big a => simp [PyObject.isBig] at h
    | _ => exact hl.elim

private theorem unary_step (o : PyUn) {l : PyObject} {x : Int} (hl : l.Stands x) (hx : InRange x) :
    GivesObject l.isBig (pyUnary o l) (o.meaning x) := by
  cases l with
  | big a =>
    obtain ⟨b, h1, h2⟩ := C53_unary o a x hl (fits hl hx)
    exact ⟨b, by simp only [pyUnary, h1, PyOut.call], h2⟩
  | int n =>
    obtain rfl : n.value = x := hl
    exact ⟨_, rfl, by cases o <;> rfl⟩
  | _ => exact hl.elim

private theorem bounded_range {big : Nat → Bool} {x : Nat → Int} {f : PyFormula} (h : f.Bounded big x) {z : Int}
    (hz : f.mixed big x = .ok z) : InRange z := by
  cases f with
  | arg i => cases hz; exact h
  | un o e => exact h.2 z hz
  | bin o l r => exact h.2.2 z hz

/-- A formula of `+ - * // % & | ^`, negation, `abs` and `~`, of any depth, over `BigInteger`s and `int`s.  Its value is
determined by the types of its variables: every operator that has an operand with a `BigInteger` as its leftmost variable
truncates and raises `RuntimeError` for a zero divisor, every other one floors and raises `ZeroDivisionError`.  The result is a
`BigInteger` exactly if the leftmost variable of the formula is. -/
theorem C95_value (f : PyFormula) (env : Nat → PyObject) (x : Nat → Int) (he : ∀ i, (env i).Stands (x i))
    (hb : f.Bounded (fun i => (env i).isBig) x) (hs : Cfg.strictShift = false) :
    Evaluates (env f.leftmost).isBig (f.eval env) (f.mixed (fun i => (env i).isBig) x) := by
  induction f with
  | arg i => exact gives_iff.2 ⟨_, rfl, rfl, he i⟩
  | un o e ih =>
    have ih := ih hb.1
    unfold PyFormula.mixed
    cases hm : e.mixed (fun i => (env i).isBig) x with
    | error ex =>
      rw [hm] at ih
      have ih : e.eval env = .raises ex := ih
      change (PyFormula.un o e).eval env = .raises ex
      simp only [PyFormula.eval, ih]
    | ok u =>
      rw [hm] at ih
      obtain ⟨v, h1, h2, h3⟩ := gives_iff.1 ih
      have := unary_step o h3 (bounded_range hb.1 hm)
      rw [h2] at this
      have e1 : (PyFormula.un o e).eval env = pyUnary o v := by simp only [PyFormula.eval, h1]
      rw [e1]
      exact this
  | bin o l r ihl ihr =>
    have ihl := ihl hb.1
    have ihr := ihr hb.2.1
    unfold PyFormula.mixed
    cases hl : l.mixed (fun i => (env i).isBig) x with
    | error ex =>
      rw [hl] at ihl
      have ihl : l.eval env = .raises ex := ihl
      change (PyFormula.bin o l r).eval env = .raises ex
      simp only [PyFormula.eval, ihl]
    | ok u =>
      rw [hl] at ihl
      obtain ⟨v, h1, h2, h3⟩ := gives_iff.1 ihl
      cases hr : r.mixed (fun i => (env i).isBig) x with
      | error ex =>
        rw [hr] at ihr
        have ihr : r.eval env = .raises ex := ihr
        change (PyFormula.bin o l r).eval env = .raises ex
        simp only [PyFormula.eval, h1, ihr]
      | ok w =>
        rw [hr] at ihr
        obtain ⟨v', h4, h5, h6⟩ := gives_iff.1 ihr
        have := arith_step o h3 h6 (bounded_range hb.1 hl) (bounded_range hb.2.1 hr) hs
        rw [h2, h5] at this
        have e1 : (PyFormula.bin o l r).eval env = pyArith o v v' := by simp only [PyFormula.eval, h1, h4]
        rw [e1]
        exact this

/-- The value that Python computes with `int`s is also the value with `BigInteger`s for some or all variables, if no
division of the formula leaves a remainder while its operands have opposite signs.  What is missing is the rest: there the
claim is false (`C95_operator_exact_iff`, `C95_refuted`). -/
theorem C95_drop_in_partial (f : PyFormula) (env : Nat → PyObject) (x : Nat → Int) (he : ∀ i, (env i).Stands (x i))
    (hb : f.Bounded (fun i => (env i).isBig) x) (hs : Cfg.strictShift = false) (hd : f.Straight x) :
    (∀ z, f.plain x = some z → GivesObject (env f.leftmost).isBig (f.eval env) z) ∧
    (f.plain x = none → f.eval env = .raises .runtimeError ∨ f.eval env = .raises .zeroDivisionError) := by
  have h := C95_value f env x he hb hs
  obtain ⟨h1, h2⟩ := mixed_plain (big := fun i => (env i).isBig) hd
  constructor
  · intro z hz
    rw [h1 z hz] at h
    exact h
  · intro hn
    obtain ⟨e, h3, rfl | rfl⟩ := h2 hn
    · rw [h3] at h; exact .inl h
    · rw [h3] at h; exact .inr h

/-- Without `//` and `%`, a formula always has a value, and the same one with `BigInteger`s for some or all variables. -/
theorem C95_no_division (f : PyFormula) (env : Nat → PyObject) (x : Nat → Int) (he : ∀ i, (env i).Stands (x i))
    (hb : f.Bounded (fun i => (env i).isBig) x) (hs : Cfg.strictShift = false) (hd : f.NoDivision) :
    ∃ z, f.plain x = some z ∧ GivesObject (env f.leftmost).isBig (f.eval env) z := by
  have hst : ∀ f : PyFormula, f.NoDivision → f.Straight x := by
    intro f hf
    induction f with
    | arg i => trivial
    | un o e ih => exact ih hf
    | bin o l r ihl ihr => exact ⟨ihl hf.1, ihr hf.2.1, fun h => absurd h hf.2.2⟩
  have hsome : ∀ f : PyFormula, f.NoDivision → ∃ z, f.plain x = some z := by
    intro f hf
    induction f with
    | arg i => exact ⟨_, rfl⟩
    | un o e ih =>
      obtain ⟨z, hz⟩ := ih hf
      exact ⟨o.meaning z, by simp [PyFormula.plain, hz]⟩
    | bin o l r ihl ihr =>
      obtain ⟨u, hu⟩ := ihl hf.1
      obtain ⟨v, hv⟩ := ihr hf.2.1
      have : o.floored u v ≠ none := fun hn => hf.2.2 ((floored_none_iff o u v).1 hn).1
      obtain ⟨z, hz⟩ := Option.ne_none_iff_exists'.1 this
      exact ⟨z, by simp [PyFormula.plain, hu, hv, hz]⟩
  obtain ⟨z, hz⟩ := hsome f hd
  exact ⟨z, hz, (C95_drop_in_partial f env x he hb hs (hst f hd)).1 z hz⟩

/-- With `int`s only, the formula is Python's. -/
theorem C95_ints (f : PyFormula) (env : Nat → PyObject) (x : Nat → Int) (he : ∀ i, (env i).Stands (x i))
    (hi : ∀ i, (env i).isBig = false) (z : Int) (hz : f.plain x = some z) : ∃ n, f.eval env = .value (.int n) ∧ n.value = z := by
  induction f generalizing z with
  | arg i =>
    cases hz
    exact (gives_iff (b := false)).2 ⟨_, rfl, hi i, he i⟩
  | un o e ih =>
    cases hp : e.plain x with
    | none => simp [PyFormula.plain, hp] at hz
    | some u =>
      obtain ⟨n, h1, rfl⟩ := ih u hp
      simp only [PyFormula.plain, hp, Option.map_some, Option.some.injEq] at hz
      subst hz
      have e1 : (PyFormula.un o e).eval env = .value (pyWrap (.inr (o.ints n.value))) := by simp only [PyFormula.eval, h1, pyUnary]
      exact ⟨_, e1, by cases o <;> rfl⟩
  | bin o l r ihl ihr =>
    cases hpl : l.plain x with
    | none => simp [PyFormula.plain, hpl] at hz
    | some u =>
      cases hpr : r.plain x with
      | none => simp [PyFormula.plain, hpl, hpr] at hz
      | some v =>
        obtain ⟨n, h1, rfl⟩ := ihl u hpl
        obtain ⟨m, h2, rfl⟩ := ihr v hpr
        have hz : o.floored n.value m.value = some z := by simpa [PyFormula.plain, hpl, hpr] using hz
        have e1 : (PyFormula.bin o l r).eval env = o.ints n.value m.value := by simp only [PyFormula.eval, h1, h2, pyArith]
        rw [e1, ints_floored, hz]
        exact ⟨_, rfl, rfl⟩

/-- One operator with a `BigInteger`: it gives the value that Python's has on `int`s if and only if it is not a division with a
remainder and operands of opposite signs. -/
theorem C95_operator_exact_iff (o : PyArith) (l r : PyObject) (x y : Int) (hl : l.Stands x) (hr : r.Stands y) (h : OneBig l r)
    (hx : InRange x) (hy : InRange y) (hs : Cfg.strictShift = false) (h0 : o.Divides → y ≠ 0) :
    (∃ z, o.floored x y = some z ∧ GivesObject l.isBig (pyArith o l r) z) ↔ ¬ (o.Divides ∧ Crosses x y) := by
  have hb := bound_step o hl hr h hx hy hs
  rw [← floored_eq_iff o x y h0]
  cases ht : o.truncated x y with
  | none => exact absurd ((truncated_none_iff o x y).1 ht).2 (h0 ((truncated_none_iff o x y).1 ht).1)
  | some w =>
    rw [ht] at hb
    have hb : GivesObject l.isBig (pyArith o l r) w := hb
    constructor
    · rintro ⟨z, hz, hg⟩
      obtain ⟨u, h1, -, h3⟩ := gives_iff.1 hb
      obtain ⟨u', h4, -, h6⟩ := gives_iff.1 hg
      rw [h1] at h4
      cases h4
      rw [hz]
      congr 1
      cases u with
      | big a => exact h6.2.symm.trans h3.2
      | int n => exact h6.symm.trans h3
      | _ => exact h3.elim
    · exact fun e => ⟨w, e, hb⟩

/-- The order of the operands of an addition decides how a later division rounds: for a `BigInteger` `a` and `int`s `m`, `n`,
`(a + m) // n` truncates and is a `BigInteger`, `(m + a) // n` floors and is an `int`. -/
theorem C95_order_matters (a : BigInt) (m n : PyInt) (x : Int) (ha : a.Denotes x) (hx : InRange x) (hm : InRange m.value)
    (hn : InRange n.value) (hsum : InRange (x + m.value)) (h0 : n.value ≠ 0) (hs : Cfg.strictShift = false) :
    (∃ b, (PyFormula.bin .floordiv (.bin .add (.arg 0) (.arg 1)) (.arg 2)).eval (threeArgs (.big a) (.int m) (.int n)) = .value (.big b) ∧
      b.Denotes ((x + m.value).tdiv n.value)) ∧
    ∃ k, (PyFormula.bin .floordiv (.bin .add (.arg 1) (.arg 0)) (.arg 2)).eval (threeArgs (.big a) (.int m) (.int n)) = .value (.int k) ∧
      k.value = ⌊((x + m.value : Int) / n.value : ℚ)⌋ := by
  have h1 : Evaluates true (pyArith .add (.big a) (.int m)) (.ok (x + m.value)) :=
    bound_step .add (l := .big a) (r := .int m) ha rfl (.inl ⟨a, rfl⟩) hx hm hs
  have h2 : Evaluates false (pyArith .add (.int m) (.big a)) (.ok (m.value + x)) :=
    bound_step .add (l := .int m) (r := .big a) rfl ha (.inr ⟨a, rfl⟩) hm hx hs
  obtain ⟨c, h3, h4⟩ := h1
  obtain ⟨k, h5, h6⟩ := h2
  constructor
  · have h7 := bound_step .floordiv (l := .big c) (r := .int n) h4 rfl (.inl ⟨c, rfl⟩) hsum hn hs
    simp only [PyArith.truncated, if_neg h0] at h7
    have e : (PyFormula.bin .floordiv (.bin .add (.arg 0) (.arg 1)) (.arg 2)).eval (threeArgs (.big a) (.int m) (.int n)) =
        pyArith .floordiv (.big c) (.int n) := by simp only [PyFormula.eval, threeArgs, h3]
    rw [e]
    exact h7
  · have e : (PyFormula.bin .floordiv (.bin .add (.arg 1) (.arg 0)) (.arg 2)).eval (threeArgs (.big a) (.int m) (.int n)) =
        PyArith.floordiv.ints k.value n.value := by
      simp only [PyFormula.eval, threeArgs, h5]
      rfl
    rw [e, ints_floored]
    simp only [PyArith.floored, if_neg h0]
    refine ⟨_, rfl, ?_⟩
    rw [h6, add_comm]

/-! ### Instances -/

private theorem tiny {x : Int} (h : x.natAbs < 2 ^ 65) : InRange x :=
  lt_of_lt_of_le h (Nat.pow_le_pow_right (by decide) (by decide))
private abbrev five : PyInt := ⟨5, false, by decide⟩
private abbrev one' : PyInt := ⟨1, false, by decide⟩
private def values (x y z : Int) : Nat → Int
  | 0 => x
  | 1 => y
  | _ => z
private theorem small_stands : ∀ i, (threeArgs (.big small) (.int one') (.int five) i).Stands (values (-42) 1 5 i)
  | 0 => small_denotes
  | 1 => rfl
  | _ + 2 => rfl
private theorem mixed_ok {b : Nat → Bool} {f : PyFormula} {w : Int} {x : Nat → Int} (h : f.mixed b x = .ok w) (hw : InRange w) :
    ∀ z, f.mixed b x = .ok z → InRange z := by
  intro z hz
  rw [h] at hz
  cases hz
  exact hw

/-- `BigInteger` in place of `int` changes results: `(-42 + 1) // 5` is -9, `(BigInteger(-42) + 1) // 5` is -8. -/
theorem C95_refuted (hs : Cfg.strictShift = false) :
    ¬ ∀ (f : PyFormula) (env : Nat → PyObject) (x : Nat → Int), (∀ i, (env i).Stands (x i)) → f.Bounded (fun i => (env i).isBig) x →
      ∀ z, f.plain x = some z → GivesObject (env f.leftmost).isBig (f.eval env) z := by
  intro h
  have h1 := (C95_order_matters small one' five (-42) small_denotes (tiny (by decide)) (tiny (by decide)) (tiny (by decide))
    (tiny (by decide)) (by decide) hs).1
  obtain ⟨b, h2, h3⟩ := h1
  have hb : (PyFormula.bin .floordiv (.bin .add (.arg 0) (.arg 1)) (.arg 2)).Bounded
      (fun i => (threeArgs (.big small) (.int one') (.int five) i).isBig) (values (-42) 1 5) :=
    ⟨⟨tiny (by decide), tiny (by decide), mixed_ok (w := -41) rfl (tiny (by decide))⟩, tiny (by decide), mixed_ok (w := -8) rfl (tiny (by decide))⟩
  have hp : (PyFormula.bin .floordiv (.bin .add (.arg 0) (.arg 1)) (.arg 2)).plain (values (-42) 1 5) = some (-9) := by
    change PyArith.floored .floordiv (-41) 5 = _
    simp only [PyArith.floored, floor_quotient (show (5 : Int) ≠ 0 by decide)]
    rfl
  obtain ⟨c, h4, h5⟩ := h _ _ _ small_stands hb _ hp
  rw [h2] at h4
  cases h4
  have : (-41 : Int).tdiv 5 = -9 := h3.2.symm.trans h5.2
  exact absurd this (by decide)

-- `(1 + BigInteger(-42)) // 5`
example (hs : Cfg.strictShift = false) : ∃ k, (PyFormula.bin .floordiv (.bin .add (.arg 1) (.arg 0)) (.arg 2)).eval
    (threeArgs (.big small) (.int one') (.int five)) = .value (.int k) ∧ k.value = ⌊((-42 + 1 : Int) / (5 : Int) : ℚ)⌋ :=
  (C95_order_matters small one' five (-42) small_denotes (tiny (by decide)) (tiny (by decide)) (tiny (by decide))
    (tiny (by decide)) (by decide) hs).2
-- one operator
example (hs : Cfg.strictShift = false) : ¬ ∃ z, PyArith.floordiv.floored (-42) 5 = some z ∧
    GivesObject true (pyArith .floordiv (.big small) (.int five)) z := fun h =>
  (C95_operator_exact_iff .floordiv (.big small) (.int five) (-42) 5 small_denotes rfl (.inl ⟨_, rfl⟩) (tiny (by decide)) (tiny (by decide)) hs
    (fun _ => by decide)).1 h (by decide)
example (hs : Cfg.strictShift = false) : ∃ z, PyArith.mod.floored (-42) (-5) = some z ∧
    GivesObject true (pyArith .mod (.big small) (.int ⟨-5, false, by decide⟩)) z :=
  (C95_operator_exact_iff .mod (.big small) (.int ⟨-5, false, by decide⟩) (-42) (-5) small_denotes rfl (.inl ⟨_, rfl⟩) (tiny (by decide))
    (tiny (by decide)) hs (fun _ => by decide)).2 (by decide)

-- `(1 + a) * a // a`
private abbrev sample : PyFormula := .bin .floordiv (.bin .mul (.bin .add (.arg 1) (.arg 0)) (.arg 0)) (.arg 0)
private theorem sample_bounded : sample.Bounded (fun i => (threeArgs (.big small) (.int one') (.int five) i).isBig) (values (-42) 1 5) :=
  ⟨⟨⟨tiny (by decide), tiny (by decide), mixed_ok (w := -41) rfl (tiny (by decide))⟩, tiny (by decide), mixed_ok (w := 1722) rfl (tiny (by decide))⟩,
    tiny (by decide), mixed_ok (w := -41) rfl (tiny (by decide))⟩
example (hs : Cfg.strictShift = false) : ∃ n, sample.eval (threeArgs (.big small) (.int one') (.int five)) = .value (.int n) ∧ n.value = -41 :=
  C95_value sample _ _ small_stands sample_bounded hs
example (hs : Cfg.strictShift = false) : ∃ n, sample.eval (threeArgs (.big small) (.int one') (.int five)) = .value (.int n) ∧ n.value = -41 :=
  (C95_drop_in_partial sample _ _ small_stands sample_bounded hs ⟨⟨⟨trivial, trivial, fun h => absurd h (by decide)⟩, trivial, fun h => absurd h (by decide)⟩,
    trivial, fun _ u v h1 h2 => by cases h1; cases h2; decide⟩).1 (-41) (by
      change PyArith.floored .floordiv 1722 (-42) = _
      simp only [PyArith.floored, floor_quotient (show (-42 : Int) ≠ 0 by decide)]
      rfl)
-- `~(a ^ 1)`
example (hs : Cfg.strictShift = false) : ∃ z, (PyFormula.un .invert (.bin .xor (.arg 0) (.arg 1))).plain (values (-42) 1 5) = some z ∧
    GivesObject true ((PyFormula.un .invert (.bin .xor (.arg 0) (.arg 1))).eval (threeArgs (.big small) (.int one') (.int five))) z :=
  C95_no_division _ _ _ small_stands ⟨⟨tiny (by decide), tiny (by decide), mixed_ok (w := -41) rfl (tiny (by decide))⟩,
    mixed_ok (w := 40) rfl (tiny (by decide))⟩ hs ⟨trivial, trivial, by decide⟩
-- `5 // (1 - 5)` on `int`s
example : ∃ n, (PyFormula.bin .floordiv (.arg 2) (.bin .sub (.arg 1) (.arg 2))).eval (threeArgs (.int one') (.int one') (.int five)) =
    .value (.int n) ∧ n.value = -2 :=
  C95_ints _ (threeArgs (.int one') (.int one') (.int five)) (values 1 1 5) (fun i => match i with | 0 => rfl | 1 => rfl | _ + 2 => rfl) (fun i => match i with | 0 => rfl | 1 => rfl | _ + 2 => rfl) _ (by
      change PyArith.floored .floordiv 5 (-4) = _
      simp only [PyArith.floored, floor_quotient (show (-4 : Int) ≠ 0 by decide)]
      rfl)

end BigIntegerCpp
