import Mathlib.Data.Nat.Digits.Defs
import Verif.PythonProgramSpec
import Verif.Props.PythonFormula
/-
C96: `BigInteger` in place of `int` in Python programs with `if` and `while`.
-/
set_option linter.unusedSectionVars false
namespace BigIntegerCpp
open Samples
variable [Cfg]

private theorem safe_bounded {big : Nat → Bool} {x : Nat → Int} {f : PyFormula} (h : f.InBounds x) (hd : f.Straight x) : f.Bounded big x := by
  have key : ∀ f : PyFormula, f.Straight x → (∀ z, f.plain x = some z → InRange z) → ∀ z, f.mixed big x = .ok z → InRange z := by
    intro f hd hr z hz
    obtain ⟨h1, h2⟩ := mixed_plain (big := big) hd
    cases hp : f.plain x with
    | none =>
      obtain ⟨e, h3, -⟩ := h2 hp
      rw [h3] at hz
      cases hz
    | some w =>
      rw [h1 w hp] at hz
      cases hz
      exact hr _ hp
  induction f with
  | arg i => exact h
  | un o e ih => exact ⟨ih h.1 hd, key _ hd h.2⟩
  | bin o l r ihl ihr => exact ⟨ihl h.1 hd.1, ihr h.2.1 hd.2.1, key _ hd h.2.2⟩

private theorem in_bounds {x : Nat → Int} {f : PyFormula} (h : f.InBounds x) {z : Int} (hz : f.plain x = some z) : InRange z := by
  cases f with
  | arg i => cases hz; exact h
  | un o e => exact h.2 z hz
  | bin o l r => exact h.2.2 z hz

private theorem value_of {b : Bool} {out : PyOut PyObject} {z : Int} (h : GivesObject b out z) : ∃ v, out = .value v ∧ v.Stands z := by
  cases b
  · obtain ⟨n, h1, h2⟩ := h
    exact ⟨_, h1, h2⟩
  · obtain ⟨n, h1, h2⟩ := h
    exact ⟨_, h1, h2⟩

private theorem formula_ok {f : PyFormula} {env : Nat → PyObject} {x : Nat → Int} (he : ∀ i, (env i).Stands (x i)) (h : f.Safe x)
    (hs : Cfg.strictShift = false) :
    (∀ z, f.plain x = some z → ∃ v, f.eval env = .value v ∧ v.Stands z) ∧
    (f.plain x = none → f.eval env = .raises .runtimeError ∨ f.eval env = .raises .zeroDivisionError) := by
  obtain ⟨h1, h2⟩ := C95_drop_in_partial f env x he (safe_bounded h.1 h.2) hs h.2
  exact ⟨fun z hz => value_of (h1 z hz), h2⟩

private theorem test_ok {t : PyTest} {env : Nat → PyObject} {x : Nat → Int} (he : ∀ i, (env i).Stands (x i)) (h : t.Safe x)
    (hs : Cfg.strictShift = false) :
    (∀ b, t.plain x = some b → t.eval env = .value b) ∧
    (t.plain x = none → t.eval env = .raises .runtimeError ∨ t.eval env = .raises .zeroDivisionError) := by
  cases t with
  | cmp c l r =>
    obtain ⟨l1, l2⟩ := formula_ok he h.1 hs
    obtain ⟨r1, r2⟩ := formula_ok he h.2 hs
    cases hl : l.plain x with
    | none =>
      refine ⟨fun b hb => by simp [PyTest.plain, hl] at hb, fun _ => ?_⟩
      rcases l2 hl with e | e <;> simp [PyTest.eval, e, PyOut.andThen]
    | some u =>
      obtain ⟨v, h1, h2⟩ := l1 u hl
      cases hr : r.plain x with
      | none =>
        refine ⟨fun b hb => by simp [PyTest.plain, hl, hr] at hb, fun _ => ?_⟩
        rcases r2 hr with e | e <;> simp [PyTest.eval, h1, e, PyOut.andThen]
      | some w =>
        obtain ⟨v', h3, h4⟩ := r1 w hr
        refine ⟨fun b hb => ?_, fun hn => by simp [PyTest.plain, hl, hr] at hn⟩
        have hb : decide (c.meaning u w) = b := by simpa [PyTest.plain, hl, hr] using hb
        rw [← hb, ← C77_compare c v v' u w h2 h4 (in_bounds h.1.1 hl) (in_bounds h.2.1 hr) hs]
        simp only [PyTest.eval, h1, h3, PyOut.andThen]
  | truth e =>
    obtain ⟨l1, l2⟩ := formula_ok he h.1 hs
    cases hl : e.plain x with
    | none =>
      refine ⟨fun b hb => by simp [PyTest.plain, hl] at hb, fun _ => ?_⟩
      rcases l2 hl with e | e <;> simp [PyTest.eval, e, PyOut.andThen]
    | some u =>
      obtain ⟨v, h1, h2⟩ := l1 u hl
      have hu : u ≠ 0 := fun h0 => h.2 (by rw [hl, h0])
      refine ⟨fun b hb => ?_, fun hn => by simp [PyTest.plain, hl] at hn⟩
      have hb : b = true := by
        have : (!decide (u = 0)) = b := by simpa [PyTest.plain, hl] using hb
        rw [← this]
        simp [hu]
      subst hb
      simp only [PyTest.eval, h1, PyOut.andThen]
      cases v with
      | big a => simp only [pyTruth, C77_always_true]
      | int n =>
        obtain rfl : n.value = u := h2
        simp [pyTruth, hu]
      | _ => exact h2.elim

/-- A program of assignments, `if` and `while` over formulas, run on `BigInteger`s, on `int`s or on a mixture, does step by step what
Python does on `int`s of the same values: it ends in the same step, with the same values, or with an exception in the same cases, or
goes on, as long as no division leaves a remainder with operands of opposite signs, no zero is taken for its truth value and the values
are in range.  What is missing is false: `C96_halving_never_ends`, `C95_refuted`. -/
theorem C96_program_partial (n : Nat) (s : PyStmt) (env : Nat → PyObject) (x : Nat → Int) (he : ∀ i, (env i).Stands (x i))
    (h : s.Safe n x) (hs : Cfg.strictShift = false) : Agrees (s.run n env) (s.plain n x) := by
  induction n generalizing s env x with
  | zero => cases s <;> trivial
  | succ n ih =>
    cases s with
    | skip => exact ⟨env, rfl, he⟩
    | assign i e =>
      obtain ⟨h1, h2⟩ := formula_ok he h hs
      cases hp : e.plain x with
      | none =>
        simp only [PyStmt.plain, hp, Option.map_none]
        rcases h2 hp with h3 | h3
        · simp only [PyStmt.run, h3, PyOut.andThen]; exact .inl rfl
        · simp only [PyStmt.run, h3, PyOut.andThen]; exact .inr rfl
      | some z =>
        obtain ⟨v, h3, h4⟩ := h1 z hp
        simp only [PyStmt.plain, hp, Option.map_some, PyStmt.run, h3, PyOut.andThen]
        refine ⟨_, rfl, fun j => ?_⟩
        by_cases hj : j = i
        · subst hj
          dsimp only
          rw [Function.update_self, if_pos rfl]
          exact h4
        · dsimp only
          rw [Function.update_of_ne hj, if_neg hj]
          exact he j
    | seq a b =>
      have h1 := ih a env x he h.1
      unfold PyStmt.run PyStmt.plain
      cases hp : a.plain n x with
      | none =>
        rw [hp] at h1
        cases hr : a.run n env with
        | none => trivial
        | some out => rw [hr] at h1; exact h1.elim
      | some o =>
        rw [hp] at h1
        cases hr : a.run n env with
        | none => rw [hr] at h1; cases o <;> exact h1.elim
        | some out =>
          rw [hr] at h1
          cases o with
          | none => rcases h1 with rfl | rfl <;> [exact .inl rfl; exact .inr rfl]
          | some x' =>
            obtain ⟨env', rfl, he'⟩ := h1
            exact ih b env' x' he' (h.2 x' hp)
    | ite t a b =>
      obtain ⟨t1, t2⟩ := test_ok he h.1 hs
      unfold PyStmt.run PyStmt.plain
      cases hp : t.plain x with
      | none =>
        rcases t2 hp with e | e <;> rw [e]
        · exact .inl rfl
        · exact .inr rfl
      | some c =>
        rw [t1 c hp]
        cases c
        · exact ih b env x he (h.2.2 hp)
        · exact ih a env x he (h.2.1 hp)
    | loop t b =>
      obtain ⟨t1, t2⟩ := test_ok he h.1 hs
      unfold PyStmt.run PyStmt.plain
      cases hp : t.plain x with
      | none =>
        rcases t2 hp with e | e <;> rw [e]
        · exact .inl rfl
        · exact .inr rfl
      | some c =>
        rw [t1 c hp]
        cases c
        · exact ⟨env, rfl, he⟩
        · obtain ⟨hb, hl⟩ := h.2 hp
          have h1 := ih b env x he hb
          dsimp only
          cases hpb : b.plain n x with
          | none =>
            rw [hpb] at h1
            cases hr : b.run n env with
            | none => trivial
            | some out => rw [hr] at h1; exact h1.elim
          | some o =>
            rw [hpb] at h1
            cases hr : b.run n env with
            | none => rw [hr] at h1; cases o <;> exact h1.elim
            | some out =>
              rw [hr] at h1
              cases o with
              | none => rcases h1 with rfl | rfl <;> [exact .inl rfl; exact .inr rfl]
              | some x' =>
                obtain ⟨env', rfl, he'⟩ := h1
                exact ih (.loop t b) env' x' he' (hl x' hpb)

private theorem loop_step {t : PyTest} {b : PyStmt} {n : Nat} {env env' : Nat → PyObject} (ht : t.eval env = .value true)
    (hb : b.run n env = some (.value env')) : (PyStmt.loop t b).run (n + 1) env = (PyStmt.loop t b).run n env' := by
  rw [PyStmt.run, ht]
  dsimp only
  rw [hb]

/-- `while x: x = x // m` never ends for a `BigInteger` `x`, whatever its value. -/
theorem C96_halving_never_ends (env : Nat → PyObject) (a : BigInt) (m : PyInt) (x : Int) (h0 : env 0 = .big a) (h1 : env 1 = .int m)
    (ha : a.Denotes x) (hx : InRange x) (hm : InRange m.value) (hm0 : m.value ≠ 0) (hs : Cfg.strictShift = false) (n : Nat) :
    halving.run n env = none := by
  induction n generalizing env a x with
  | zero => rfl
  | succ n ih =>
    cases n with
    | zero =>
      simp only [halving, PyStmt.run, PyTest.eval, PyFormula.eval, h0, PyOut.andThen, pyTruth, C77_always_true]
    | succ n =>
      obtain ⟨z, hz, b, hb, hd⟩ : ∃ z, PyArith.floordiv.truncated x m.value = some z ∧ ∃ b, pyArith .floordiv (.big a) (.int m) = .value (.big b) ∧ b.Denotes z := by
        have := C77_binary .floordiv (.big a) (.int m) x m.value ha rfl (.inl ⟨a, rfl⟩) hx hm hs
        simp only [PyOp.meaning, if_neg hm0] at this
        obtain ⟨b, h2, h3⟩ := this
        exact ⟨_, by simp only [PyArith.truncated, if_neg hm0], b, by simp only [pyArith, PyArith.op, h2, pyWrap], h3⟩
      simp only [PyArith.truncated, if_neg hm0, Option.some.injEq] at hz
      subst hz
      have hr : InRange (x.tdiv m.value) := lt_of_le_of_lt (Int.natAbs_tdiv_le_natAbs _ _) hx
      have := ih (Function.update env 0 (.big b)) b _ (Function.update_self ..) (by rw [Function.update_of_ne (by decide), h1]) hd hr
      have e : halving.run (n + 2) env = halving.run (n + 1) (Function.update env 0 (.big b)) := by
        conv_lhs => unfold halving PyStmt.run
        simp only [PyStmt.run, PyTest.eval, PyFormula.eval, h0, h1, PyOut.andThen, pyTruth, C77_always_true, hb]
        rfl
      rw [e]
      exact this

/-- For an `int` `x` that is not negative and a divisor of at least 2 the same program ends, with 0. -/
theorem C96_halving_ints (env : Nat → PyObject) (k m : PyInt) (h0 : env 0 = .int k) (h1 : env 1 = .int m) (hk : 0 ≤ k.value) (hm : 2 ≤ m.value) :
    ∃ n env' z, halving.run n env = some (.value env') ∧ env' 0 = .int z ∧ z.value = 0 := by
  suffices h : ∀ b : Nat, ∀ (env : Nat → PyObject) (k : PyInt), env 0 = .int k → env 1 = .int m → 0 ≤ k.value → k.value < b →
      ∃ n env' z, halving.run (n + 1) env = some (.value env') ∧ env' 0 = .int z ∧ z.value = 0 by
    obtain ⟨n, r⟩ := h (k.value.toNat + 1) env k h0 h1 hk (by omega)
    exact ⟨n + 1, r⟩
  intro b
  induction b with
  | zero => intro env k _ _ h2 h3; omega
  | succ b ih =>
    intro env k h0 h1 h2 h3
    by_cases hz : k.value = 0
    · refine ⟨0, env, k, ?_, h0, hz⟩
      simp only [halving, PyStmt.run, PyTest.eval, PyFormula.eval, h0, PyOut.andThen, pyTruth, hz]
      rfl
    · have hm0 : m.value ≠ 0 := by omega
      have hlt : k.value.fdiv m.value < k.value := by
        rw [Int.fdiv_eq_ediv_of_nonneg _ (by omega)]
        exact Int.ediv_lt_self_of_pos_of_ne_one (by omega) (by omega) 
      have hge : 0 ≤ k.value.fdiv m.value := Int.fdiv_nonneg h2 (by omega)
      obtain ⟨n, env', z, h4, h5⟩ := ih (Function.update env 0 (pyWrap (.inr (k.value.fdiv m.value)))) _ (Function.update_self ..)
        (by rw [Function.update_of_ne (by decide), h1]) hge (by dsimp only; omega)
      refine ⟨n + 1, env', z, ?_, h5⟩
      rw [← h4]
      refine loop_step ?_ ?_
      · simp only [PyTest.eval, PyFormula.eval, h0, PyOut.andThen, pyTruth]
        rw [decide_eq_true hz]
      · simp only [PyStmt.run, PyFormula.eval, h0, h1, PyOut.andThen, pyArith, PyArith.ints, if_neg hm0]

/-! ### Counting digits -/

private theorem plain_step {t : PyTest} {b : PyStmt} {n : Nat} {x x' : Nat → Int} (ht : t.plain x = some true)
    (hb : b.plain n x = some (some x')) : (PyStmt.loop t b).plain (n + 1) x = (PyStmt.loop t b).plain n x' := by
  rw [PyStmt.plain, ht]
  dsimp only
  rw [hb]

private theorem counting_plain (m : Nat) (hm : 2 ≤ m) (hmr : InRange m) (v : Nat) : ∀ (x : Nat → Int) (c : Nat), x 0 = v → x 1 = m → x 2 = c → x 3 = 0 →
    x 4 = 1 → InRange (c + v : Nat) → ∃ n x', counting.plain (n + 3) x = some (some x') ∧ x' 0 = 0 ∧ x' 2 = (c + (Nat.digits m v).length : Nat) ∧
      counting.Safe (n + 3) x := by
  have le : ∀ {a b : Nat}, a ≤ b → InRange b → InRange a := fun h hb => lt_of_le_of_lt h hb
  induction v using Nat.strong_induction_on with
  | _ v ih =>
    intro x c h0 h1 h2 h3 h4 hr
    have r0 : InRange (x 0) := by rw [h0]; exact le (Nat.le_add_left ..) hr
    have r3 : InRange (x 3) := by rw [h3]; exact le (Nat.zero_le _) hr
    have ht : PyTest.Safe x (.cmp .gt (.arg 0) (.arg 3)) := ⟨⟨r0, trivial⟩, r3, trivial⟩
    by_cases hv : v = 0
    · subst hv
      have e : (PyTest.cmp .gt (.arg 0) (.arg 3)).plain x = some false := by
        simp [PyTest.plain, PyFormula.plain, h0, h3, PyCmp.meaning]
      refine ⟨0, x, ?_, h0, by simp [h2], ht, fun h => ?_⟩
      · simp only [counting, PyStmt.plain, e]
      · rw [e] at h; cases h
    · have e : (PyTest.cmp .gt (.arg 0) (.arg 3)).plain x = some true := by
        simp only [PyTest.plain, PyFormula.plain, h0, h3, PyCmp.meaning]
        simp [Nat.pos_of_ne_zero hv]
      have hdl : v / m < v := Nat.div_lt_self (by omega) hm
      have hm0 : (m : Int) ≠ 0 := by omega
      have ef : PyArith.floordiv.floored v m = some ((v / m : Nat) : Int) := by
        simp only [PyArith.floored, if_neg hm0, floor_quotient hm0, Int.fdiv_eq_ediv_of_nonneg _ (show (0 : Int) ≤ m by omega)]
        rfl
      have e1 : (PyFormula.bin .floordiv (.arg 0) (.arg 1)).plain x = some ((v / m : Nat) : Int) := by
        simp only [PyFormula.plain, h0, h1]
        exact ef
      let x1 : Nat → Int := fun j => if j = 0 then ((v / m : Nat) : Int) else x j
      let x2 : Nat → Int := fun j => if j = 2 then ((c + 1 : Nat) : Int) else x1 j
      have e2 : (PyFormula.bin .add (.arg 2) (.arg 4)).plain x1 = some ((c + 1 : Nat) : Int) := by
        simp [PyFormula.plain, x1, h2, h4, PyArith.floored]
      have s1 : ∀ k, (PyStmt.assign 0 (.bin .floordiv (.arg 0) (.arg 1))).plain (k + 1) x = some (some x1) := fun k => by
        simp only [PyStmt.plain, e1, Option.map_some, x1]
      have s2 : ∀ k, (PyStmt.assign 2 (.bin .add (.arg 2) (.arg 4))).plain (k + 1) x1 = some (some x2) := fun k => by
        simp only [PyStmt.plain, e2, Option.map_some, x2]
      have hb : ∀ k, (PyStmt.seq (.assign 0 (.bin .floordiv (.arg 0) (.arg 1))) (.assign 2 (.bin .add (.arg 2) (.arg 4)))).plain (k + 2) x = some (some x2) :=
        fun k => by
          rw [PyStmt.plain, s1]
          exact s2 k
      obtain ⟨n, x', h5, h6, h7, h8⟩ := ih (v / m) hdl x2 (c + 1) rfl h1 rfl h3 h4 (le (by omega) hr)
      refine ⟨n + 1, x', ?_, h6, ?_, ht, fun _ => ⟨⟨⟨⟨r0, ?_, ?_⟩, trivial, trivial, ?_⟩, ?_⟩, ?_⟩⟩
      · rw [← h5]
        exact plain_step e (hb (n + 1))
      · rw [h7, Nat.digits_def' hm (by omega : 0 < v), List.length_cons]
        congr 1
        omega
      · change InRange (x 1)
        rw [h1]; exact hmr
      · intro z hz
        rw [e1] at hz
        cases hz
        exact le (by omega) hr
      · intro _ u w hu hw
        cases hu
        cases hw
        unfold Crosses
        omega
      · intro y hy
        rw [s1] at hy
        cases hy
        refine ⟨⟨?_, ?_, fun z hz => ?_⟩, trivial, trivial, fun h => absurd h (by decide)⟩
        · change InRange (x 2)
          rw [h2]; exact le (Nat.le_add_right ..) hr
        · change InRange (x 4)
          rw [h4]; exact le (show 1 ≤ c + v by omega) hr
        · rw [e2] at hz
          cases hz
          exact le (by omega) hr
      · intro y hy
        rw [hb] at hy
        cases hy
        exact h8

/-- `while x > 0: x = x // m; c = c + 1`, for `BigInteger`s and `int`s in any mixture: for `x` not negative and `m` at least 2 the program
ends, and `c` has grown by the number of digits of `x` in base `m`. -/
theorem C96_digit_count (env : Nat → PyObject) (v m c : Nat) (h0 : (env 0).Stands v) (h1 : (env 1).Stands m) (h2 : (env 2).Stands c)
    (h3 : (env 3).Stands 0) (h4 : (env 4).Stands 1) (hrest : ∀ i, ∃ z, (env i).Stands z) (hm : 2 ≤ m) (hmr : InRange m)
    (hr : InRange (c + v : Nat)) (hs : Cfg.strictShift = false) :
    ∃ n env', counting.run n env = some (.value env') ∧ (env' 0).Stands 0 ∧ (env' 2).Stands (c + (Nat.digits m v).length : Nat) := by
  choose x hx using hrest
  let y : Nat → Int := fun i => match i with
    | 0 => v | 1 => m | 2 => c | 3 => 0 | 4 => 1 | i => x i
  have hy : ∀ i, (env i).Stands (y i) := fun i => match i with
    | 0 => h0 | 1 => h1 | 2 => h2 | 3 => h3 | 4 => h4 | i + 5 => hx (i + 5)
  obtain ⟨n, x', h5, h6, h7, h8⟩ := counting_plain m hm hmr v y c rfl rfl rfl rfl rfl hr
  have := C96_program_partial (n + 3) counting env y hy h8 hs
  rw [h5] at this
  cases hr : counting.run (n + 3) env with
  | none => rw [hr] at this; exact this.elim
  | some out =>
    rw [hr] at this
    obtain ⟨env', rfl, he⟩ := this
    exact ⟨_, env', hr, by rw [← h6]; exact he 0, by rw [← h7]; exact he 2⟩

/-! ### Every program -/

private theorem formula_typed {f : PyFormula} {env : Nat → PyObject} {σ : PyStore} (he : σ.Holds env) (h : f.Bounded σ.big σ.val)
    (hs : Cfg.strictShift = false) :
    (∀ z, f.mixed σ.big σ.val = .ok z → ∃ v, f.eval env = .value v ∧ v.isBig = σ.big f.leftmost ∧ v.Stands z) ∧
    (∀ e, f.mixed σ.big σ.val = .error e → f.eval env = .raises e) := by
  have eb : (fun i => (env i).isBig) = σ.big := funext fun i => (he i).1
  have := C95_value f env σ.val (fun i => (he i).2) (by rw [eb]; exact h) hs
  rw [eb] at this
  constructor
  · intro z hz
    rw [hz] at this
    have this : GivesObject (env f.leftmost).isBig (f.eval env) z := this
    rw [(he _).1] at this
    cases hb : σ.big f.leftmost
    · rw [hb] at this
      obtain ⟨n, h1, h2⟩ := this
      exact ⟨_, h1, rfl, h2⟩
    · rw [hb] at this
      obtain ⟨n, h1, h2⟩ := this
      exact ⟨_, h1, rfl, h2⟩
  · intro e h1
    rw [h1] at this
    exact this

private theorem bounded_value {big : Nat → Bool} {x : Nat → Int} {f : PyFormula} (h : f.Bounded big x) {z : Int}
    (hz : f.mixed big x = .ok z) : InRange z := by
  cases f with
  | arg i => cases hz; exact h
  | un o e => exact h.2 z hz
  | bin o l r => exact h.2.2 z hz

private theorem test_typed {t : PyTest} {env : Nat → PyObject} {σ : PyStore} (he : σ.Holds env) (h : t.Bounded σ)
    (hs : Cfg.strictShift = false) :
    (∀ b, t.typed σ = .ok b → t.eval env = .value b) ∧ (∀ e, t.typed σ = .error e → t.eval env = .raises e) := by
  cases t with
  | cmp c l r =>
    obtain ⟨l1, l2⟩ := formula_typed he h.1 hs
    obtain ⟨r1, r2⟩ := formula_typed he h.2 hs
    cases hl : l.mixed σ.big σ.val with
    | error ex =>
      refine ⟨fun b hb => by simp [PyTest.typed, hl] at hb, fun e hx => ?_⟩
      simp only [PyTest.typed, hl, Except.error.injEq] at hx
      subst hx
      simp only [PyTest.eval, l2 _ hl, PyOut.andThen]
    | ok u =>
      obtain ⟨v, h1, -, h2⟩ := l1 u hl
      cases hr : r.mixed σ.big σ.val with
      | error ex =>
        refine ⟨fun b hb => by simp [PyTest.typed, hl, hr] at hb, fun e hx => ?_⟩
        simp only [PyTest.typed, hl, hr, Except.error.injEq] at hx
        subst hx
        simp only [PyTest.eval, h1, r2 _ hr, PyOut.andThen]
      | ok w =>
        obtain ⟨v', h3, -, h4⟩ := r1 w hr
        refine ⟨fun b hb => ?_, fun e hx => by simp [PyTest.typed, hl, hr] at hx⟩
        simp only [PyTest.typed, hl, hr, Except.ok.injEq] at hb
        rw [← hb, ← C77_compare c v v' u w h2 h4 (bounded_value h.1 hl) (bounded_value h.2 hr) hs]
        simp only [PyTest.eval, h1, h3, PyOut.andThen]
  | truth f =>
    obtain ⟨l1, l2⟩ := formula_typed he h hs
    cases hl : f.mixed σ.big σ.val with
    | error ex =>
      refine ⟨fun b hb => by simp [PyTest.typed, hl] at hb, fun e hx => ?_⟩
      simp only [PyTest.typed, hl, Except.error.injEq] at hx
      subst hx
      simp only [PyTest.eval, l2 _ hl, PyOut.andThen]
    | ok u =>
      obtain ⟨v, h1, hb1, h2⟩ := l1 u hl
      refine ⟨fun b hb => ?_, fun e hx => by simp [PyTest.typed, hl] at hx⟩
      simp only [PyTest.typed, hl, Except.ok.injEq] at hb
      rw [← hb, ← hb1]
      simp only [PyTest.eval, h1, PyOut.andThen]
      cases v with
      | big a => simp only [pyTruth, C77_always_true, PyObject.isBig, Bool.true_or]
      | int n =>
        obtain rfl : n.value = u := h2
        simp only [pyTruth, PyObject.isBig, Bool.false_or]
      | _ => exact h2.elim

/-- What every program does, step by step, with values in range: the divisions and the truth values go by the types of the objects,
which are followed too. -/
theorem C96_actual (n : Nat) (s : PyStmt) (env : Nat → PyObject) (σ : PyStore) (he : σ.Holds env) (h : s.Bounded n σ)
    (hs : Cfg.strictShift = false) : Follows (s.run n env) (s.typed n σ) := by
  induction n generalizing s env σ with
  | zero => cases s <;> trivial
  | succ n ih =>
    -- the body of a statement, then `b` in the variables it leaves
    have chain : ∀ (a b : PyStmt), a.Bounded n σ → (∀ σ', a.typed n σ = some (.ok σ') → b.Bounded n σ') →
        Follows (match a.run n env with
          | none => none
          | some (.value env') => b.run n env'
          | some out => some out) (match a.typed n σ with
          | some (.ok σ') => b.typed n σ'
          | out => out) := by
      intro a b ha hb
      have h1 := ih a env σ he ha
      cases hp : a.typed n σ with
      | none =>
        rw [hp] at h1
        cases hr : a.run n env with
        | none => trivial
        | some out => rw [hr] at h1; exact h1.elim
      | some o =>
        rw [hp] at h1
        cases hr : a.run n env with
        | none => rw [hr] at h1; cases o <;> exact h1.elim
        | some out =>
          rw [hr] at h1
          cases o with
          | error ex =>
            obtain rfl : out = .raises ex := h1
            exact rfl
          | ok σ' =>
            obtain ⟨env', rfl, he'⟩ := h1
            exact ih b env' σ' he' (hb σ' hp)
    cases s with
    | skip => exact ⟨env, rfl, he⟩
    | assign i e =>
      obtain ⟨h1, h2⟩ := formula_typed he h hs
      cases hp : e.mixed σ.big σ.val with
      | error ex =>
        simp only [PyStmt.typed, hp, PyStmt.run, h2 ex hp, PyOut.andThen]
        exact rfl
      | ok z =>
        obtain ⟨v, h3, h4, h5⟩ := h1 z hp
        simp only [PyStmt.typed, hp, PyStmt.run, h3, PyOut.andThen]
        refine ⟨_, rfl, fun j => ?_⟩
        by_cases hj : j = i
        · subst hj
          simp only [PyStore.set, if_pos, Function.update_self]
          exact ⟨h4, h5⟩
        · simp only [PyStore.set, if_neg hj, Function.update_of_ne hj]
          exact he j
    | seq a b =>
      unfold PyStmt.run PyStmt.typed
      exact chain a b h.1 h.2
    | ite t a b =>
      obtain ⟨t1, t2⟩ := test_typed he h.1 hs
      unfold PyStmt.run PyStmt.typed
      cases hp : t.typed σ with
      | error ex =>
        rw [t2 ex hp]
        exact rfl
      | ok c =>
        rw [t1 c hp]
        cases c
        · exact ih b env σ he (h.2.2 hp)
        · exact ih a env σ he (h.2.1 hp)
    | loop t b =>
      obtain ⟨t1, t2⟩ := test_typed he h.1 hs
      unfold PyStmt.run PyStmt.typed
      cases hp : t.typed σ with
      | error ex =>
        rw [t2 ex hp]
        exact rfl
      | ok c =>
        rw [t1 c hp]
        cases c
        · exact ⟨env, rfl, he⟩
        · obtain ⟨hb, hl⟩ := h.2 hp
          exact chain b (.loop t b) hb hl

/-! ### Instances -/

private theorem tiny {x : Int} (h : x.natAbs < 2 ^ 65) : InRange x :=
  lt_of_lt_of_le h (Nat.pow_le_pow_right (by decide) (by decide))
private abbrev ten : PyInt := ⟨10, false, by decide⟩
private def sampleEnv : Nat → PyObject
  | 0 => .big pos2
  | 1 => .int ten
  | 2 => .int ⟨0, true, by decide⟩
  | 3 => .big ⟨0, []⟩
  | _ => .int ⟨1, false, by decide⟩
private theorem sample_all : ∀ i, ∃ z, (sampleEnv i).Stands z
  | 0 => ⟨_, pos2_denotes⟩
  | 1 => ⟨_, rfl⟩
  | 2 => ⟨_, rfl⟩
  | 3 => ⟨0, BigInt.denotes_small (by decide) (by decide)⟩
  | _ + 4 => ⟨_, rfl⟩
-- 38654705667 has 11 digits
example (hs : Cfg.strictShift = false) : ∃ n env', counting.run n sampleEnv = some (.value env') ∧ (env' 0).Stands 0 ∧
    (env' 2).Stands (0 + (Nat.digits 10 38654705667).length : Nat) :=
  C96_digit_count sampleEnv 38654705667 10 0 pos2_denotes rfl rfl (BigInt.denotes_small (by decide) (by decide)) rfl sample_all (by decide)
    (tiny (by decide)) (tiny (by decide)) hs
example (hs : Cfg.strictShift = false) : ∀ n, halving.run n sampleEnv = none :=
  C96_halving_never_ends sampleEnv pos2 ten _ rfl rfl pos2_denotes (tiny (by decide)) (tiny (by decide)) (by decide) hs
example : ∃ n env' z, halving.run n (threeArgs (.int ⟨1234, false, by decide⟩) (.int ten) (.int ten)) = some (.value env') ∧ env' 0 = .int z ∧ z.value = 0 :=
  C96_halving_ints _ _ _ rfl rfl (by decide) (by decide)
-- `a = a // 10` for a `BigInteger` -42: a `BigInteger` -4
example (hs : Cfg.strictShift = false) : ∃ env', (PyStmt.assign 0 (.bin .floordiv (.arg 0) (.arg 1))).run 1 (threeArgs (.big small) (.int ten) (.int ten)) =
    some (.value env') ∧ (env' 0).isBig = true ∧ (env' 0).Stands (-4) := by
  obtain ⟨env', h1, h2⟩ := C96_actual 1 (.assign 0 (.bin .floordiv (.arg 0) (.arg 1))) (threeArgs (.big small) (.int ten) (.int ten))
    ⟨fun i => i == 0, fun i => match i with | 0 => -42 | _ => 10⟩
    (fun i => match i with | 0 => ⟨rfl, small_denotes⟩ | 1 => ⟨rfl, rfl⟩ | _ + 2 => ⟨rfl, rfl⟩)
    ⟨tiny (by decide), tiny (by decide), fun z hz => by cases hz; exact tiny (by decide)⟩ hs
  exact ⟨env', congrArg some h1, h2 0⟩
-- `if a < 10: a = -a`
example (hs : Cfg.strictShift = false) : ∃ env', (PyStmt.ite (.cmp .lt (.arg 0) (.arg 1)) (.assign 0 (.un .neg (.arg 0))) .skip).run 2
    (threeArgs (.big small) (.int ten) (.int ten)) = some (.value env') ∧ (env' 0).Stands 42 := by
  have h := C96_program_partial 2 (.ite (.cmp .lt (.arg 0) (.arg 1)) (.assign 0 (.un .neg (.arg 0))) .skip)
    (threeArgs (.big small) (.int ten) (.int ten)) (fun i => match i with | 0 => -42 | _ => 10)
    (fun i => match i with | 0 => small_denotes | 1 => rfl | _ + 2 => rfl)
    ⟨⟨⟨tiny (by decide), trivial⟩, tiny (by decide), trivial⟩, fun _ => ⟨⟨tiny (by decide), fun z hz => by cases hz; exact tiny (by decide)⟩, trivial⟩,
      fun _ => trivial⟩ hs
  obtain ⟨out, ho⟩ : ∃ out, (PyStmt.ite (.cmp .lt (.arg 0) (.arg 1)) (.assign 0 (.un .neg (.arg 0))) .skip).run 2
    (threeArgs (.big small) (.int ten) (.int ten)) = some out := by
    cases hr : (PyStmt.ite (.cmp .lt (.arg 0) (.arg 1)) (.assign 0 (.un .neg (.arg 0))) .skip).run 2
      (threeArgs (.big small) (.int ten) (.int ten)) with
    | none => rw [hr] at h; exact h.elim
    | some o => exact ⟨o, rfl⟩
  rw [ho] at h
  obtain ⟨env', rfl, h2⟩ := h
  exact ⟨env', ho, h2 0⟩

end BigIntegerCpp
